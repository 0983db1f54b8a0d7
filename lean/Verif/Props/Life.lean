import Verif.Life.Spec
import Mathlib.Tactic.Tauto
set_option autoImplicit false
/-!
C95: the life of adapters and listeners.
-/
namespace Verif.Life

/-! ### Logs -/

theorem since_snoc (cs : List Call) (x : Call) (c : Nat) (p : Phase) :
    Since (cs ++ [x]) c p ↔ x = ⟨c, p, true⟩ ∨ (Since cs c p ∧ ¬ (x.comp = c ∧ x.phase = .stop)) := by
  constructor
  · rintro ⟨a, b, h, hb⟩
    rcases List.eq_nil_or_concat b with rfl | ⟨b', y, rfl⟩
    · have := List.append_inj' h rfl
      exact .inl (by simpa using this.2)
    · rw [List.concat_eq_append, ← List.cons_append, ← List.append_assoc] at h
      have := List.append_inj' h rfl
      have hx : x = y := by simpa using this.2
      subst hx
      refine .inr ⟨⟨a, b', this.1, fun z hz => hb z (by simp [hz])⟩, hb x (by simp)⟩
  · rintro (rfl | ⟨⟨a, b, rfl, hb⟩, hx⟩)
    · exact ⟨cs, [], rfl, by simp⟩
    · refine ⟨a, b ++ [x], by simp, fun z hz => ?_⟩
      rcases List.mem_append.1 hz with h | h
      · exact hb z h
      · rw [List.mem_singleton] at h; subst h; exact hx

theorem since_nil (c : Nat) (p : Phase) : ¬ Since [] c p := by
  rintro ⟨a, b, h, -⟩; simp at h

theorem always_snoc (G : List Call → Call → Prop) (cs : List Call) (x : Call) : Always G (cs ++ [x]) ↔ Always G cs ∧ G cs x := by
  constructor
  · intro h
    refine ⟨fun pre y post e => h pre y (post ++ [x]) (by simp [e]), h cs x [] rfl⟩
  · rintro ⟨h, hx⟩ pre y post e
    rcases List.eq_nil_or_concat post with rfl | ⟨b', z, rfl⟩
    · have := List.append_inj' e rfl
      obtain ⟨rfl, h2⟩ := this
      have : x = y := by simpa using h2
      subst this; exact hx
    · rw [List.concat_eq_append, ← List.cons_append, ← List.append_assoc] at e
      exact h pre y b' (List.append_inj' e rfl).1

theorem allOk_snoc (p : Phase) (l : List Nat) (c : Nat) : allOk p (l ++ [c]) = allOk p l ++ [⟨c, p, true⟩] := by simp [allOk]

/-- Induction over lists from the right. -/
theorem snoc_ind {P : List Nat → Prop} (h0 : P []) (h1 : ∀ (l : List Nat) (c : Nat), P l → P (l ++ [c])) (l : List Nat) : P l := by
  rw [← List.reverse_reverse l]
  induction l.reverse with
  | nil => exact h0
  | cons a r ih => rw [List.reverse_cons]; exact h1 _ _ ih

theorem since_allOk (cs : List Call) (l : List Nat) (q : Phase) (c : Nat) (p : Phase) (hp : p ≠ .stop) :
    Since (cs ++ allOk q l) c p ↔ (p = q ∧ c ∈ l) ∨ (Since cs c p ∧ ¬ (q = .stop ∧ c ∈ l)) := by
  induction l using snoc_ind with
  | h0 => simp [allOk]
  | h1 l d ih =>
    rw [allOk_snoc, ← List.append_assoc, since_snoc, ih]
    simp only [Call.mk.injEq, List.mem_append, List.mem_singleton, and_true]
    have hp' : ¬ Phase.stop = p := fun h => hp h.symm
    by_cases hc : c = d
    · subst hc
      by_cases hq : q = .stop
      · subst hq; simp [hp, hp']
      · by_cases hpq : p = q
        · subst hpq; simp
        · have hqp : ¬ q = p := fun h => hpq h.symm
          simp [hpq, hq, hqp]
    · have hd : ¬ d = c := fun h => hc h.symm
      simp [hc, hd]

theorem always_allOk (G : List Call → Call → Prop) (cs : List Call) (l : List Nat) (q : Phase) (h : Always G cs) (hn : l.Nodup)
    (hG : ∀ (d : List Nat) (c : Nat), c ∉ d → c ∈ l → (∀ x ∈ d, x ∈ l) → G (cs ++ allOk q d) ⟨c, q, true⟩) : Always G (cs ++ allOk q l) := by
  induction l using snoc_ind with
  | h0 => simpa [allOk] using h
  | h1 l d ih =>
    rw [allOk_snoc, ← List.append_assoc, always_snoc]
    rw [List.nodup_append] at hn
    refine ⟨ih hn.1 (fun d' c h1 h2 h3 => hG d' c h1 (by simp [h2]) (fun x hx => by simp [h3 x hx])), hG l d ?_ (by simp) (by simp +contextual)⟩
    intro hd; exact hn.2.2 d hd d (by simp) rfl

/-! ### The loops -/

/-- The components are called in order until the first fails. -/
theorem callAll_cases (ans : Answers) (p : Phase) (l : List Nat) : ∀ (cs : List Call),
    callAll ans p l cs = (cs ++ allOk p l, true) ∨
    ∃ (d : List Nat) (c : Nat) (r : List Nat), l = d ++ c :: r ∧ callAll ans p l cs = (cs ++ allOk p d ++ [⟨c, p, false⟩], false) := by
  induction l with
  | nil => intro cs; left; simp [callAll, allOk]
  | cons c r ih =>
    intro cs
    cases h : ans cs c p with
    | false => right; exact ⟨[], c, r, rfl, by simp [callAll, h, allOk]⟩
    | true =>
      rcases ih (cs ++ [⟨c, p, true⟩]) with h1 | ⟨d, e, r', h1, h2⟩
      · left; simp [callAll, h, h1, allOk]
      · right; exact ⟨c :: d, e, r', by simp [h1], by simp [callAll, h, h2, allOk]⟩

theorem callAll_append (ans : Answers) (p : Phase) (l m : List Nat) : ∀ (cs : List Call),
    callAll ans p (l ++ m) cs = match callAll ans p l cs with
      | (cs', false) => (cs', false)
      | (cs', true) => callAll ans p m cs' := by
  induction l with
  | nil => intro cs; simp [callAll]
  | cons c r ih =>
    intro cs
    cases h : ans cs c p with
    | false => simp [callAll, h]
    | true => simp [callAll, h, ih]

theorem both_eq (s : St) (ans : Answers) (p : Phase) :
    s.both ans p = ({ s with calls := (callAll ans p s.comps s.calls).1 }, (callAll ans p s.comps s.calls).2) := by
  rw [St.comps, callAll_append, St.both]
  rcases callAll ans p s.adapters s.calls with ⟨cs, b⟩
  cases b <;> rfl

theorem both_cases (s : St) (ans : Answers) (p : Phase) :
    s.both ans p = ({ s with calls := s.calls ++ allOk p s.comps }, true) ∨
    ∃ (d : List Nat) (c : Nat) (r : List Nat), s.comps = d ++ c :: r ∧
      s.both ans p = ({ s with calls := s.calls ++ allOk p d ++ [⟨c, p, false⟩] }, false) := by
  rw [both_eq]
  rcases callAll_cases ans p s.comps s.calls with h | ⟨d, c, r, h1, h2⟩
  · left; rw [h]
  · right; exact ⟨d, c, r, h1, by rw [h2]⟩

theorem stop_started (s : St) (h : s.started = true) :
    s.stop = { s with calls := s.calls ++ allOk .stop s.comps, started := false, initialized := false } := by
  simp [St.stop, h, stopAll, allOk, St.comps]

/-- Only new components are added. -/
structure Grows (s t : St) : Prop where
  old : ∀ c ∈ s.comps, c ∈ t.comps
  new : ∀ c ∈ t.comps, c ∈ s.comps ∨ s.created ≤ c
  bound : (∀ c ∈ s.comps, c < s.created) → ∀ c ∈ t.comps, c < t.created
  nodup : (∀ c ∈ s.comps, c < s.created) → s.comps.Nodup → t.comps.Nodup
  le : s.created ≤ t.created
  calls : t.calls = s.calls
  init : t.initialized = s.initialized
  started : t.started = s.started

theorem grows_refl (s : St) : Grows s s := ⟨fun _ h => h, fun _ h => .inl h, fun h => h, fun _ h => h, Nat.le_refl _, rfl, rfl, rfl⟩

theorem grows_trans {s t u : St} (h : Grows s t) (k : Grows t u) : Grows s u where
  old := fun c hc => k.old c (h.old c hc)
  new := fun c hc => by
    rcases k.new c hc with h1 | h1
    · exact h.new c h1
    · exact .inr (Nat.le_trans h.le h1)
  bound := fun hb => k.bound (h.bound hb)
  nodup := fun hb hn => k.nodup (h.bound hb) (h.nodup hb hn)
  le := Nat.le_trans h.le k.le
  calls := k.calls.trans h.calls
  init := k.init.trans h.init
  started := k.started.trans h.started

theorem grows_adapter (s : St) : Grows s s.addAdapter where
  old := fun c hc => by simp only [St.addAdapter, St.comps, List.mem_append, List.mem_singleton] at *; tauto
  new := fun c hc => by
    simp only [St.addAdapter, St.comps, List.mem_append, List.mem_singleton] at *
    rcases hc with (h | h) | h
    · tauto
    · right; omega
    · tauto
  bound := fun hb c hc => by
    simp only [St.addAdapter, St.comps, List.mem_append, List.mem_singleton] at *
    rcases hc with (h | h) | h
    · exact Nat.lt_succ_of_lt (hb c (.inl h))
    · omega
    · exact Nat.lt_succ_of_lt (hb c (.inr h))
  nodup := fun hb hn => by
    simp only [St.addAdapter, St.comps] at *
    rw [List.append_assoc, List.perm_append_comm.append_left _ |>.nodup_iff, ← List.append_assoc, List.nodup_append]
    refine ⟨hn, by simp, fun x hx y hy e => ?_⟩
    rw [List.mem_singleton] at hy
    have := hb x hx
    omega
  le := Nat.le_succ _
  calls := rfl
  init := rfl
  started := rfl

theorem grows_listener (s : St) : Grows s s.addListener where
  old := fun c hc => by simp only [St.addListener, St.comps, List.mem_append, List.mem_singleton] at *; tauto
  new := fun c hc => by
    simp only [St.addListener, St.comps, List.mem_append, List.mem_singleton] at *
    rcases hc with h | h | h
    · tauto
    · tauto
    · right; omega
  bound := fun hb c hc => by
    simp only [St.addListener, St.comps, List.mem_append, List.mem_singleton] at *
    rcases hc with h | h | h
    · exact Nat.lt_succ_of_lt (hb c (.inl h))
    · exact Nat.lt_succ_of_lt (hb c (.inr h))
    · omega
  nodup := fun hb hn => by
    simp only [St.addListener, St.comps] at *
    rw [← List.append_assoc, List.nodup_append]
    refine ⟨hn, by simp, fun x hx y hy e => ?_⟩
    rw [List.mem_singleton] at hy
    have := hb x hx
    omega
  le := Nat.le_succ _
  calls := rfl
  init := rfl
  started := rfl

theorem grows_construct (conf : List Elem) : ∀ (s : St), Grows s (s.construct conf).1 := by
  induction conf with
  | nil => intro s; exact grows_refl s
  | cons e r ih =>
    intro s
    match e with
    | .adapter true => exact grows_trans (grows_adapter s) (ih _)
    | .listener true => exact grows_trans (grows_listener s) (ih _)
    | .adapter false => exact grows_refl s
    | .listener false => exact grows_refl s

/-- What a call of the program may do. -/
inductive Does (s t : St) (b : Bool) : Act → Prop
  | grow (a : Act) (hg : Grows s t) (ha : s.comps = t.comps ∨ a = .addAdapter ∨ a = .addListener ∨ s.initialized = false)
      (hb : b = true → ∀ conf, a = .initialize conf → t.initialized = true) (hc : b = true → a = .startInterfaces → t.started = true)
      (hd : a = .stop → t.started = false) : Does s t b a
  | init (conf : List Elem) (m : St) (hi : s.initialized = false) (hg : Grows s m) (hb : b = true)
      (ht : t = { m with calls := m.calls ++ allOk .init m.comps, initialized := true }) : Does s t b (.initialize conf)
  | initFail (conf : List Elem) (m : St) (d : List Nat) (c : Nat) (r : List Nat) (hi : s.initialized = false) (hg : Grows s m) (hm : m.comps = d ++ c :: r)
      (hb : b = false) (ht : t = { m with calls := m.calls ++ allOk .init d ++ [⟨c, .init, false⟩] }) : Does s t b (.initialize conf)
  | start (hi : s.initialized = true) (hs : s.started = false) (hb : b = true)
      (ht : t = { s with calls := s.calls ++ allOk .start s.comps, started := true }) : Does s t b .startInterfaces
  | startFail (d : List Nat) (c : Nat) (r : List Nat) (hi : s.initialized = true) (hs : s.started = false) (hm : s.comps = d ++ c :: r)
      (hb : b = false) (ht : t = { s with calls := s.calls ++ allOk .start d ++ [⟨c, .start, false⟩] }) : Does s t b .startInterfaces
  | stop (a : Act) (hs : s.started = true) (ha : a = .stop ∨ a = .terminate)
      (ht : t = { s with calls := s.calls ++ allOk .stop s.comps, started := false, initialized := false }) : Does s t b a

theorem act_does (s : St) (ans : Answers) (a : Act) : Does s (s.act ans a).1 (s.act ans a).2 a := by
  cases a with
  | addAdapter => exact .grow _ (grows_adapter s) (by simp) (by simp) (by simp) (by simp)
  | addListener => exact .grow _ (grows_listener s) (by simp) (by simp) (by simp) (by simp)
  | «initialize» conf =>
    simp only [St.act, St.initialize]
    cases hi : s.initialized with
    | true => exact .grow _ (grows_refl s) (by simp) (by simp [hi]) (by simp) (by simp)
    | false =>
      have hg := grows_construct conf s
      rcases hc : s.construct conf with ⟨m, b⟩
      rw [hc] at hg
      cases b with
      | false => exact .grow _ hg (by simp [hi]) (by simp) (by simp) (by simp)
      | true =>
        simp only
        rcases both_cases m ans .init with h | ⟨d, c, r, h1, h2⟩
        · rw [h]; exact .init conf m hi hg rfl rfl
        · rw [h2]; exact .initFail conf m d c r hi hg h1 rfl rfl
  | startInterfaces =>
    simp only [St.act, St.startInterfaces]
    cases hi : s.initialized with
    | false => exact .grow _ (grows_refl s) (by simp) (by simp) (by simp) (by simp)
    | true =>
      cases hs : s.started with
      | true => exact .grow _ (grows_refl s) (by simp) (by simp) (by simp [hs]) (by simp)
      | false =>
        simp only
        rcases both_cases s ans .start with h | ⟨d, c, r, h1, h2⟩
        · rw [h]; exact .start hi hs rfl rfl
        · rw [h2]; exact .startFail d c r hi hs h1 rfl rfl
  | stop =>
    cases hs : s.started with
    | false =>
      have : s.stop = s := by simp [St.stop, hs]
      simp only [St.act, this]
      exact .grow _ (grows_refl s) (by simp) (by simp) (by simp) (by simp [hs])
    | true => simp only [St.act]; exact .stop _ hs (by simp) (stop_started s hs)
  | terminate =>
    simp only [St.act, St.terminate]
    cases hi : s.initialized with
    | false => exact .grow _ (grows_refl s) (by simp) (by simp) (by simp) (by simp)
    | true =>
      cases hs : s.started with
      | false => exact .grow _ (grows_refl s) (by simp) (by simp) (by simp) (by simp)
      | true => exact .stop _ hs (by simp) (stop_started s hs)

/-- Holds in every history. -/
structure Base (s : St) : Prop where
  bound : ∀ c ∈ s.comps, c < s.created
  nodup : s.comps.Nodup
  mem : ∀ x ∈ s.calls, x.comp ∈ s.comps
  flags : s.started = true → s.initialized = true

theorem mem_allOk {p : Phase} {l : List Nat} {x : Call} (h : x ∈ allOk p l) : x.comp ∈ l ∧ x.phase = p ∧ x.ok = true := by
  simp only [allOk, List.mem_map] at h
  obtain ⟨c, hc, rfl⟩ := h
  exact ⟨hc, rfl, rfl⟩

theorem base_grows {s t : St} (h : Base s) (g : Grows s t) : Base t where
  bound := g.bound h.bound
  nodup := g.nodup h.bound h.nodup
  mem := fun x hx => g.old _ (h.mem x (by rwa [g.calls] at hx))
  flags := by rw [g.started, g.init]; exact h.flags

theorem base_does {s t : St} {b : Bool} {a : Act} (h : Base s) (d : Does s t b a) : Base t := by
  cases d with
  | grow _ hg _ _ _ _ => exact base_grows h hg
  | init conf m hi hg hb ht =>
    subst ht
    have k := base_grows h hg
    refine ⟨k.bound, k.nodup, fun x hx => ?_, fun _ => rfl⟩
    rcases List.mem_append.1 hx with h1 | h1
    · exact k.mem x h1
    · exact (mem_allOk h1).1
  | initFail conf m d c r hi hg hm hb ht =>
    subst ht
    have k := base_grows h hg
    refine ⟨k.bound, k.nodup, fun x hx => ?_, k.flags⟩
    show x.comp ∈ m.comps
    rcases List.mem_append.1 hx with h1 | h1
    · rcases List.mem_append.1 h1 with h2 | h2
      · exact k.mem x h2
      · rw [hm]; simp [(mem_allOk h2).1]
    · rw [List.mem_singleton] at h1; subst h1; rw [hm]; simp
  | start hi hs hb ht =>
    subst ht
    refine ⟨h.bound, h.nodup, fun x hx => ?_, fun _ => hi⟩
    rcases List.mem_append.1 hx with h1 | h1
    · exact h.mem x h1
    · exact (mem_allOk h1).1
  | startFail d c r hi hs hm hb ht =>
    subst ht
    refine ⟨h.bound, h.nodup, fun x hx => ?_, h.flags⟩
    show x.comp ∈ s.comps
    rcases List.mem_append.1 hx with h1 | h1
    · rcases List.mem_append.1 h1 with h2 | h2
      · exact h.mem x h2
      · rw [hm]; simp [(mem_allOk h2).1]
    · rw [List.mem_singleton] at h1; subst h1; rw [hm]; simp
  | stop _ hs ha ht =>
    subst ht
    refine ⟨h.bound, h.nodup, fun x hx => ?_, by simp⟩
    rcases List.mem_append.1 hx with h1 | h1
    · exact h.mem x h1
    · exact (mem_allOk h1).1

theorem Reach.base {P : St → Act → Prop} {ans : Answers} {s : St} (h : Reach P ans s) : Base s := by
  induction h with
  | new => exact ⟨by simp [St.comps], by simp [St.comps], by simp, by simp⟩
  | act a _ _ ih => exact base_does ih (act_does _ _ a)

/-! ### The properties -/

theorem always_block (G : List Call → Call → Prop) {cs : List Call} (h : Always G cs) {l d : List Nat} {c : Nat} {r : List Nat} {q : Phase}
    (hl : l = d ++ c :: r) (hn : l.Nodup)
    (hG : ∀ (d : List Nat) (c : Nat) (b : Bool), c ∉ d → c ∈ l → (∀ x ∈ d, x ∈ l) → G (cs ++ allOk q d) ⟨c, q, b⟩) :
    Always G (cs ++ allOk q d ++ [⟨c, q, false⟩]) := by
  subst hl
  have hn' := List.nodup_append.1 hn
  rw [always_snoc]
  refine ⟨always_allOk G cs d q h hn'.1 (fun d' c' h1 h2 h3 => hG d' c' true h1 (by simp [h2]) (fun x hx => by simp [h3 x hx])),
    hG d c false (fun h => hn'.2.2 c h c (by simp) rfl) (by simp) (fun x hx => by simp [hx])⟩

/-- The demand concerns one kind of call only, so the other loops keep it. -/
theorem always_other {p q : Phase} (hpq : q ≠ p) (D : List Call → Nat → Prop) {cs : List Call}
    (h : Always (fun pre x => x.phase = p → D pre x.comp) cs) (l : List Nat) : Always (fun pre x => x.phase = p → D pre x.comp) (cs ++ allOk q l) := by
  induction l using snoc_ind with
  | h0 => simpa [allOk] using h
  | h1 l d ih => rw [allOk_snoc, ← List.append_assoc, always_snoc]; exact ⟨ih, fun e => absurd e hpq⟩

theorem always_otherFail {p q : Phase} (hpq : q ≠ p) (D : List Call → Nat → Prop) {cs : List Call}
    (h : Always (fun pre x => x.phase = p → D pre x.comp) cs) (l : List Nat) (c : Nat) :
    Always (fun pre x => x.phase = p → D pre x.comp) (cs ++ allOk q l ++ [⟨c, q, false⟩]) := by
  rw [always_snoc]; exact ⟨always_other hpq D h l, fun e => absurd e hpq⟩

/-- **C95, no component is started that is not initialized**, if components are added before the application is initialized. -/
theorem c95_initialized_before_start_partial (ans : Answers) (s : St) (h : Reach AddsEarly ans s) :
    Always (fun pre x => x.phase = .start → Initialized pre x.comp) s.calls ∧ (s.initialized = true → ∀ c ∈ s.comps, Initialized s.calls c) := by
  induction h with
  | new => exact ⟨fun pre x post e => by simp at e, by simp⟩
  | @act s a hr hP ih =>
    have hb := hr.base
    cases act_does s ans a with
    | grow _ hg ha _ _ _ =>
      rw [hg.calls, hg.init]
      refine ⟨ih.1, fun hi c hc => ih.2 hi c ?_⟩
      rcases ha with h1 | h1 | h1 | h1
      · rw [h1]; exact hc
      · have := hP (.inl h1); rw [this] at hi; cases hi
      · have := hP (.inr h1); rw [this] at hi; cases hi
      · rw [h1] at hi; cases hi
    | init conf m hi hg _ ht =>
      rw [ht]
      refine ⟨always_other (by decide) _ (by rw [hg.calls]; exact ih.1) _, fun _ c hc => ?_⟩
      exact (since_allOk _ _ _ _ _ (by decide)).2 (.inl ⟨rfl, hc⟩)
    | initFail conf m d c r hi hg hm _ ht =>
      rw [ht]
      refine ⟨always_otherFail (by decide) _ (by rw [hg.calls]; exact ih.1) _ _, fun h => ?_⟩
      have : m.initialized = true := h
      rw [hg.init, hi] at this; cases this
    | start hi hs _ ht =>
      rw [ht]
      refine ⟨always_allOk _ _ _ _ ih.1 hb.nodup (fun d c _ hc _ _ => ?_), fun _ c hc => ?_⟩
      · exact (since_allOk _ _ _ _ _ (by decide)).2 (.inr ⟨ih.2 hi c hc, by simp⟩)
      · exact (since_allOk _ _ _ _ _ (by decide)).2 (.inr ⟨ih.2 hi c hc, by simp⟩)
    | startFail d c r hi hs hm _ ht =>
      rw [ht]
      refine ⟨always_block _ ih.1 hm hb.nodup (fun d c _ _ hc _ _ => ?_), fun _ c' hc => ?_⟩
      · exact (since_allOk _ _ _ _ _ (by decide)).2 (.inr ⟨ih.2 hi c hc, by simp⟩)
      · show Since (_ ++ [_]) c' .init
        rw [since_snoc]
        exact .inr ⟨(since_allOk _ _ _ _ _ (by decide)).2 (.inr ⟨ih.2 hi c' hc, by simp⟩), by simp⟩
    | stop _ hs ha ht =>
      rw [ht]
      exact ⟨always_other (by decide) _ ih.1 _, by simp⟩

/-- **C95, no component is stopped that is not running**, if none is added while the interfaces are started; and while they are, all are running. -/
theorem c95_running_before_stop_partial (ans : Answers) (s : St) (h : Reach AddsStopped ans s) :
    Always (fun pre x => x.phase = .stop → Running pre x.comp) s.calls ∧ (s.started = true → ∀ c ∈ s.comps, Running s.calls c) := by
  induction h with
  | new => exact ⟨fun pre x post e => by simp at e, by simp⟩
  | @act s a hr hP ih =>
    have hb := hr.base
    cases act_does s ans a with
    | grow _ hg ha _ _ _ =>
      rw [hg.calls, hg.started]
      refine ⟨ih.1, fun hi c hc => ih.2 hi c ?_⟩
      rcases ha with h1 | h1 | h1 | h1
      · rw [h1]; exact hc
      · have := hP (.inl h1); rw [this] at hi; cases hi
      · have := hP (.inr h1); rw [this] at hi; cases hi
      · have := hb.flags hi; rw [h1] at this; cases this
    | init conf m hi hg _ ht =>
      rw [ht]
      refine ⟨always_other (by decide) _ (by rw [hg.calls]; exact ih.1) _, fun h => ?_⟩
      have : m.started = true := h
      rw [hg.started] at this; have := hb.flags this; rw [hi] at this; cases this
    | initFail conf m d c r hi hg hm _ ht =>
      rw [ht]
      refine ⟨always_otherFail (by decide) _ (by rw [hg.calls]; exact ih.1) _ _, fun h => ?_⟩
      have : m.started = true := h
      rw [hg.started] at this; have := hb.flags this; rw [hi] at this; cases this
    | start hi hs _ ht =>
      rw [ht]
      exact ⟨always_other (by decide) _ ih.1 _, fun _ c hc => (since_allOk _ _ _ _ _ (by decide)).2 (.inl ⟨rfl, hc⟩)⟩
    | startFail d c r hi hs hm _ ht =>
      rw [ht]
      refine ⟨always_otherFail (by decide) _ ih.1 _ _, fun h => ?_⟩
      have : s.started = true := h
      rw [hs] at this; cases this
    | stop _ hs ha ht =>
      rw [ht]
      refine ⟨always_allOk _ _ _ _ ih.1 hb.nodup (fun d c hd hc _ _ => ?_), by simp⟩
      exact (since_allOk _ _ _ _ _ (by decide)).2 (.inr ⟨ih.2 hs c hc, by simp [hd]⟩)

theorem NoFailure.of_append {p : Phase} {cs ds : List Call} (h : NoFailure p (cs ++ ds)) : NoFailure p cs :=
  fun x hx => h x (by simp [hx])

/-- **C95, no component is started twice, and none is left running**, as long as no component failed to start: when a component is started it is not
running, and once the interfaces are stopped none is. -/
theorem c95_started_once_partial (ans : Answers) (s : St) (h : Reach (fun _ _ => True) ans s) (hf : NoFailure .start s.calls) :
    Always (fun pre x => x.phase = .start → ¬ Running pre x.comp) s.calls ∧ (s.started = false → ∀ (c : Nat), ¬ Running s.calls c) := by
  induction h with
  | new => exact ⟨fun pre x post e => by simp at e, fun _ c => since_nil c _⟩
  | @act s a hr _ ih =>
    have hb := hr.base
    cases act_does s ans a with
    | grow _ hg ha _ _ _ =>
      rw [hg.calls] at hf
      rw [hg.calls, hg.started]
      exact ih hf
    | init conf m hi hg _ ht =>
      rw [ht] at hf ⊢
      have ih := ih (by rw [← hg.calls]; exact hf.of_append)
      refine ⟨always_other (p := .start) (by decide) (fun pre c => ¬ Running pre c) (by rw [hg.calls]; exact ih.1) _, fun h c hc => ?_⟩
      have h : m.started = false := h
      have hc := (since_allOk _ _ _ _ _ (by decide)).1 hc
      simp only [reduceCtorEq, false_and, not_false_eq_true, and_true, false_or] at hc
      rw [hg.calls] at hc
      exact ih.2 (by rw [← hg.started]; exact h) c hc
    | initFail conf m d c r hi hg hm _ ht =>
      rw [ht] at hf ⊢
      have ih := ih (by rw [← hg.calls]; exact hf.of_append.of_append)
      refine ⟨always_otherFail (p := .start) (by decide) (fun pre c => ¬ Running pre c) (by rw [hg.calls]; exact ih.1) _ _, fun h c hc => ?_⟩
      have h : m.started = false := h
      have hc := (since_snoc _ _ _ _).1 hc
      rw [since_allOk _ _ _ _ _ (by decide)] at hc
      simp only [Call.mk.injEq, reduceCtorEq, and_false, false_and, not_false_eq_true, and_true, false_or] at hc
      rw [hg.calls] at hc
      exact ih.2 (by rw [← hg.started]; exact h) c hc
    | start hi hs _ ht =>
      rw [ht] at hf ⊢
      have ih := ih hf.of_append
      refine ⟨always_allOk _ _ _ _ ih.1 hb.nodup (fun d c hd hc _ _ hr => ?_), by simp⟩
      have hr := (since_allOk _ _ _ _ _ (by decide)).1 hr
      rcases hr with hr | hr
      · exact hd hr.2
      · exact ih.2 hs c hr.1
    | startFail d c r hi hs hm _ ht =>
      rw [ht] at hf
      have := hf ⟨c, .start, false⟩ (by simp) rfl
      cases this
    | stop _ hs ha ht =>
      rw [ht] at hf ⊢
      have ih := ih hf.of_append
      refine ⟨always_other (p := .start) (by decide) (fun pre c => ¬ Running pre c) ih.1 _, fun _ c hc => ?_⟩
      have hc := (since_allOk _ _ _ _ _ (by decide)).1 hc
      rcases hc with hc | ⟨⟨x, y, e, _⟩, hc⟩
      · cases hc.1
      · have := hb.mem ⟨c, .start, true⟩ (by rw [e]; simp)
        exact hc ⟨rfl, this⟩

/-- **C95, no component is initialized twice** without being stopped between, as long as none failed to initialize. -/
theorem c95_initialized_once_partial (ans : Answers) (s : St) (h : Reach (fun _ _ => True) ans s) (hf : NoFailure .init s.calls) :
    Always (fun pre x => x.phase = .init → ¬ Initialized pre x.comp) s.calls ∧ (s.initialized = false → ∀ (c : Nat), ¬ Initialized s.calls c) := by
  induction h with
  | new => exact ⟨fun pre x post e => by simp at e, fun _ c => since_nil c _⟩
  | @act s a hr _ ih =>
    have hb := hr.base
    cases act_does s ans a with
    | grow _ hg ha _ _ _ =>
      rw [hg.calls] at hf
      rw [hg.calls, hg.init]
      exact ih hf
    | init conf m hi hg _ ht =>
      rw [ht] at hf ⊢
      have ih := ih (by rw [← hg.calls]; exact hf.of_append)
      refine ⟨always_allOk _ _ _ _ (by rw [hg.calls]; exact ih.1) (base_grows hb hg).nodup (fun d c hd hc _ _ hr => ?_), by simp⟩
      have hr := (since_allOk _ _ _ _ _ (by decide)).1 hr
      rcases hr with hr | hr
      · exact hd hr.2
      · exact ih.2 hi c (by rw [← hg.calls]; exact hr.1)
    | initFail conf m d c r hi hg hm _ ht =>
      rw [ht] at hf
      have := hf ⟨c, .init, false⟩ (by simp) rfl
      cases this
    | start hi hs _ ht =>
      rw [ht] at hf ⊢
      have ih := ih hf.of_append
      refine ⟨always_other (p := .init) (by decide) (fun pre c => ¬ Initialized pre c) ih.1 _, fun h => ?_⟩
      have : s.initialized = false := h
      rw [hi] at this; cases this
    | startFail d c r hi hs hm _ ht =>
      rw [ht] at hf ⊢
      have ih := ih hf.of_append.of_append
      refine ⟨always_otherFail (p := .init) (by decide) (fun pre c => ¬ Initialized pre c) ih.1 _ _, fun h => ?_⟩
      have : s.initialized = false := h
      rw [hi] at this; cases this
    | stop _ hs ha ht =>
      rw [ht] at hf ⊢
      have ih := ih hf.of_append
      refine ⟨always_other (p := .init) (by decide) (fun pre c => ¬ Initialized pre c) ih.1 _, fun _ c hc => ?_⟩
      have hc := (since_allOk _ _ _ _ _ (by decide)).1 hc
      rcases hc with hc | ⟨⟨x, y, e, _⟩, hc⟩
      · cases hc.1
      · have := hb.mem ⟨c, .init, true⟩ (by rw [e]; simp)
        exact hc ⟨rfl, this⟩

/-- **C95, what the answers mean**: `initialize` answers yes only if the application is initialized, `startInterfaces` only if it is started; both call the
components in order, adapters before listeners, up to the first that fails. In any state. -/
theorem c95_answers (ans : Answers) (s : St) :
    (∀ conf, (s.act ans (.initialize conf)).2 = true → (s.act ans (.initialize conf)).1.initialized = true) ∧
    ((s.act ans .startInterfaces).2 = true → (s.act ans .startInterfaces).1.started = true) ∧
    (s.act ans .stop).1.started = false ∧
    (s.initialized = true → s.started = false →
      ((s.act ans .startInterfaces).1.calls = s.calls ++ allOk .start s.comps ∧ (s.act ans .startInterfaces).2 = true) ∨
      ∃ (d : List Nat) (c : Nat) (r : List Nat), s.comps = d ++ c :: r ∧
        (s.act ans .startInterfaces).1.calls = s.calls ++ allOk .start d ++ [⟨c, .start, false⟩] ∧ (s.act ans .startInterfaces).2 = false) := by
  refine ⟨fun conf h => ?_, fun h => ?_, ?_, fun hi hs => ?_⟩
  · have hd := act_does s ans (.initialize conf)
    generalize hx : s.act ans (.initialize conf) = x at *
    generalize ha : Act.initialize conf = a at *
    cases hd with
    | grow _ hg _ hb _ _ => exact hb h conf ha.symm
    | init conf m hi hg hb ht => rw [ht]
    | initFail _ _ _ _ _ _ _ _ hb _ => rw [h] at hb; cases hb
    | start hi hs hb ht => cases ha
    | startFail d c r hi hs hm hb ht => cases ha
    | stop _ hs ha' ht => subst ha; simp at ha'
  · have hd := act_does s ans .startInterfaces
    generalize hx : s.act ans .startInterfaces = x at *
    generalize ha : Act.startInterfaces = a at *
    cases hd with
    | grow _ hg _ _ hb _ => exact hb h ha.symm
    | init conf m hi hg hb ht => cases ha
    | initFail _ _ _ _ _ _ _ _ hb _ => cases ha
    | start hi hs hb ht => rw [ht]
    | startFail d c r hi hs hm hb ht => rw [h] at hb; cases hb
    | stop _ hs ha' ht => subst ha; simp at ha'
  · cases hs : s.started <;> simp [St.act, St.stop, hs]
  · simp only [St.act, St.startInterfaces, hi, hs]
    rcases both_cases s ans .start with h | ⟨d, c, r, h1, h2⟩
    · left; rw [h]; exact ⟨rfl, rfl⟩
    · right; exact ⟨d, c, r, h1, by rw [h2], by rw [h2]⟩

/-! ### A history, and the ones in which the demands are not met -/

/-- Run a list of calls. -/
def runActs (ans : Answers) : List Act → St → St
  | [], s => s
  | a :: r, s => runActs ans r (s.act ans a).1

theorem reach_run {ans : Answers} (l : List Act) : ∀ {s : St}, Reach (fun _ _ => True) ans s → Reach (fun _ _ => True) ans (runActs ans l s) := by
  induction l with
  | nil => intro s h; exact h
  | cons a r ih => intro s h; exact ih (.act a h trivial)

/-- All components do what they are asked. -/
def willing : Answers := fun _ _ _ => true

/-- Component 1 fails to start the first time. -/
def late : Answers := fun cs c p => !(p = .start ∧ c = 1 ∧ ⟨1, .start, false⟩ ∉ cs)

/-- An ordinary run: two adapters and a listener, initialized, started and stopped in order. -/
theorem c95_example :
    (runActs willing [.addAdapter, .initialize [.listener true, .adapter true], .startInterfaces, .stop] {}).calls =
      allOk .init [0, 2, 1] ++ allOk .start [0, 2, 1] ++ allOk .stop [0, 2, 1] := by decide +kernel

theorem example_reach : Reach AddsEarly willing (runActs willing [.addAdapter, .initialize [.listener true, .adapter true], .startInterfaces, .stop] {}) :=
  .act .stop (.act .startInterfaces (.act (.initialize [.listener true, .adapter true]) (.act .addAdapter .new (fun _ => rfl)) (by simp [AddsEarly]))
    (by simp [AddsEarly])) (by simp [AddsEarly])

/-- **Found**: an adapter added after `initialize` is started without having been initialized. -/
theorem c95_not_initialized :
    ∃ s, Reach (fun _ _ => True) willing s ∧ ⟨0, .start, true⟩ ∈ s.calls ∧ ∀ x ∈ s.calls, x.phase ≠ .init :=
  ⟨_, reach_run [.initialize [], .addAdapter, .startInterfaces] .new, by decide +kernel, by decide +kernel⟩

/-- **Found**: if a component fails to start, those started before are left running, and `stop` does nothing about them
(`ExecApplication.cc:589`). -/
theorem c95_left_running :
    ∃ s, Reach (fun _ _ => True) late s ∧ Running s.calls 0 ∧ s.started = false ∧ s.stop = s ∧ s.terminate = s :=
  ⟨_, reach_run [.addAdapter, .addAdapter, .initialize [], .startInterfaces, .stop] .new,
    ⟨allOk .init [0, 1], [⟨1, .start, false⟩], by decide +kernel, by decide⟩, by decide +kernel, by decide +kernel, by decide +kernel⟩

/-- **Found**: trying again then starts them a second time. -/
theorem c95_started_twice :
    ∃ s, Reach (fun _ _ => True) late s ∧ s.started = true ∧
      s.calls = allOk .init [0, 1] ++ [⟨0, .start, true⟩, ⟨1, .start, false⟩, ⟨0, .start, true⟩, ⟨1, .start, true⟩] :=
  ⟨_, reach_run [.addAdapter, .addAdapter, .initialize [], .startInterfaces, .startInterfaces] .new, by decide +kernel, by decide +kernel⟩

/-- **Found**: an application that is initialized again after `stop` with the same configuration has every component twice, and starts both. -/
theorem c95_doubled :
    ∃ s, Reach (fun _ _ => True) willing s ∧ s.comps = [0, 1] ∧ Running s.calls 0 ∧ Running s.calls 1 :=
  ⟨_, reach_run [.initialize [.adapter true], .startInterfaces, .stop, .initialize [.adapter true], .startInterfaces] .new, by decide +kernel,
    ⟨allOk .init [0] ++ allOk .start [0] ++ allOk .stop [0] ++ allOk .init [0, 1], [⟨1, .start, true⟩], by decide +kernel, by decide⟩,
    ⟨allOk .init [0] ++ allOk .start [0] ++ allOk .stop [0] ++ allOk .init [0, 1] ++ allOk .start [0], [], by decide +kernel, by decide⟩⟩

/-- Initialising an application that is initialised, and starting interfaces that are started, is answered with success, and does nothing. -/
theorem c95_again (s : St) (ans : Answers) (hi : s.initialized = true) :
    (∀ conf, s.act ans (.initialize conf) = (s, true)) ∧ (s.started = true → s.act ans .startInterfaces = (s, true)) := by
  refine ⟨fun conf => by simp [St.act, St.initialize, hi], fun hs => by simp [St.act, St.startInterfaces, hi, hs]⟩

end Verif.Life
