import Mathlib.Data.List.Perm.Subperm
import Verif.Input.Model

/-!
C55: the input queue.
-/
namespace Verif.Input

/-! ## Specification: a first-in-first-out queue of what was submitted -/

/-- What the user sees: what has been queued and not taken out, what each producer is about to queue, what the consumer is looking at. -/
structure Spec where
  pending : List Msg := []
  staged : Nat → Option (Msg × Bool) := fun _ => none
  cur : Option Msg := none

/-- Submissions with a null pointer or an empty handle are refused. -/
def Refused : Msg → Prop
  | .commandAck c _ | .commandReturn c _ | .commandAbort c _ | .updateAck c _ => c = 0
  | .receiveMsg m => m = 0
  | .acceptMsg m h => m = 0 ∨ h = []
  | .releaseMsgHandle h => h = []
  | _ => False

instance (m : Msg) : Decidable (Refused m) := by
  cases m <;> simp only [Refused] <;> infer_instance

/-- A command handle is a legal one (49 to 57), or is replaced by `COMMAND_INTERFACE_ERROR` (57); all else goes through as it is. -/
def Norm (m m' : Msg) : Prop :=
  match m with
  | .commandAck c h => ∃ h', m' = .commandAck c h' ∧ ((49 ≤ h ∧ h ≤ 57 ∧ h' = h) ∨ (¬ (49 ≤ h ∧ h ≤ 57) ∧ h' = 57))
  | m => m' = m

/-- One step of the specification.  `deliver` says what the executive gets for an entry. -/
inductive Spec.Step (deliver : Msg → Out) : Spec → Op → Spec → Out → Prop
  | refuse {q : Spec} {t : Nat} {m : Msg} : q.staged t = none → Refused m → Step deliver q (.submit t m) q .refused
  | submit {q : Spec} {t : Nat} {m m' : Msg} : q.staged t = none → ¬ Refused m → Norm m m' →
      Step deliver q (.submit t m) { q with staged := upd q.staged t (some (m', false)) } .silent
  | init {q : Spec} {t : Nat} {m : Msg} : q.staged t = some (m, false) →
      Step deliver q (.init t) { q with staged := upd q.staged t (some (m, true)) } .silent
  | put {q : Spec} {t : Nat} {m : Msg} : q.staged t = some (m, true) →
      Step deliver q (.put t) { q with staged := upd q.staged t none, pending := q.pending ++ [m] } .silent
  | isEmpty {q : Spec} : Step deliver q .isEmpty q (.empty q.pending.isEmpty)
  | getNone {q : Spec} : q.cur = none → q.pending = [] → Step deliver q .get q (.got false)
  | get {q : Spec} {m : Msg} {l : List Msg} : q.cur = none → q.pending = m :: l →
      Step deliver q .get { q with cur := some m, pending := l } (.got true)
  | read {q : Spec} {m : Msg} : q.cur = some m → Step deliver q .read q (deliver m)
  | release {q : Spec} {m : Msg} : q.cur = some m → Step deliver q .release { q with cur := none } .silent
  | flush {q : Spec} : Step deliver q .flush { q with pending := [] } .silent

/-- A history of the specification; it ends with a crash. -/
inductive Spec.Run (deliver : Msg → Out) : Spec → List Op → Spec → List Out → Prop
  | nil {q : Spec} : Run deliver q [] q []
  | cons {q q' q'' : Spec} {o : Op} {os : List Op} {r : Out} {rs : List Out} :
      Step deliver q o q' r → r ≠ .crash → Run deliver q' os q'' rs → Run deliver q (o :: os) q'' (r :: rs)
  | crash {q q' : Spec} {o : Op} {os : List Op} : Step deliver q o q' .crash → Run deliver q (o :: os) q' [.crash]

/-! ## Lists in memory -/

/-- The entries reached from `h`. -/
def Chain (cell : Nat → Cell) : Option Nat → List Nat → Prop
  | h, [] => h = none
  | h, p :: l => h = some p ∧ Chain cell (cell p).next l

@[simp] theorem upd_same {β : Type} (f : Nat → β) (t : Nat) (x : β) : upd f t x t = x := by simp [upd]

theorem upd_other {β : Type} (f : Nat → β) {t i : Nat} (x : β) (h : i ≠ t) : upd f t x i = f i := by simp [upd, h]

theorem chain_congr {c c' : Nat → Cell} {l : List Nat} : ∀ {h : Option Nat}, (∀ p ∈ l, (c' p).next = (c p).next) → Chain c h l → Chain c' h l := by
  induction l with
  | nil => intro h _ hc; exact hc
  | cons p l ih =>
    rintro h hp ⟨h1, h2⟩
    exact ⟨h1, by rw [hp p (by simp)]; exact ih (fun q hq => hp q (by simp [hq])) h2⟩

theorem chain_upd {c : Nat → Cell} {l : List Nat} {h : Option Nat} {p : Nat} {x : Cell} (hp : p ∉ l) (hc : Chain c h l) : Chain (upd c p x) h l :=
  chain_congr (fun q hq => by rw [upd_other]; rintro rfl; exact hp hq) hc

/-- Appending at the end. -/
theorem chain_snoc {c : Nat → Cell} {l : List Nat} {q p : Nat} : ∀ {h : Option Nat}, Chain c h (l ++ [q]) → (l ++ [q]).Nodup → p ∉ l ++ [q] →
    Chain (upd (upd c p { c p with next := none }) q { upd c p { c p with next := none } q with next := some p }) h (l ++ [q] ++ [p]) := by
  induction l with
  | nil =>
    rintro h ⟨h1, h2⟩ hn hp
    have hpq : p ≠ q := by simpa using hp
    refine ⟨h1, ?_⟩
    simp only [upd_same]
    refine ⟨rfl, ?_⟩
    rw [upd_other _ _ hpq]; simp [Chain]
  | cons x l ih =>
    rintro h ⟨h1, h2⟩ hn hp
    rw [List.cons_append, List.nodup_cons] at hn
    have hxq : x ≠ q := by rintro rfl; exact hn.1 (by simp)
    have hxp : x ≠ p := by rintro rfl; exact hp (by simp)
    refine ⟨h1, ?_⟩
    rw [upd_other _ _ hxq, upd_other _ _ hxp]
    exact ih h2 hn.2 (fun h => hp (by simp at h ⊢; right; exact h))

/-! ## Entries -/

/-- What the executive gets for what was submitted: for an accepted message an assertion fails. -/
def delivers : Msg → Option Msg
  | .acceptMsg _ _ => none
  | m => some m

theorem read_next (c : Cell) (n : Option Nat) : ({ c with next := n } : Cell).read = c.read := rfl

/-- Null pointers and empty handles have been refused. -/
def Sound : Msg → Prop
  | m => ¬ Refused m

theorem check_refused (m : Msg) : check m = none ↔ Refused m := by
  cases m with
  | commandAck c h => cases c <;> simp [check, Refused]
  | commandReturn c v => cases c <;> simp [check, Refused]
  | commandAbort c v => cases c <;> simp [check, Refused]
  | updateAck c v => cases c <;> simp [check, Refused]
  | receiveMsg m => cases m <;> simp [check, Refused]
  | acceptMsg m h => cases m <;> cases h <;> simp [check, Refused]
  | releaseMsgHandle h => cases h <;> simp [check, Refused]
  | _ => simp [check, Refused]

theorem check_norm {m m' : Msg} (h : check m = some m') : Norm m m' ∧ ¬ Refused m' := by
  cases m with
  | commandAck c hv =>
    cases c with
    | zero => simp [check] at h
    | succ c =>
      simp only [check, Option.some.injEq] at h
      subst h
      refine ⟨⟨_, rfl, ?_⟩, by simp [Refused]⟩
      split <;> omega
  | commandReturn c v => cases c <;> simp [check] at h; subst h; exact ⟨rfl, by simp [Refused]⟩
  | commandAbort c v => cases c <;> simp [check] at h; subst h; exact ⟨rfl, by simp [Refused]⟩
  | updateAck c v => cases c <;> simp [check] at h; subst h; exact ⟨rfl, by simp [Refused]⟩
  | receiveMsg m => cases m <;> simp [check] at h; subst h; exact ⟨rfl, by simp [Refused]⟩
  | acceptMsg m hd => cases m <;> cases hd <;> simp [check] at h; subst h; exact ⟨rfl, by simp [Refused]⟩
  | releaseMsgHandle hd => cases hd <;> simp [check] at h; subst h; exact ⟨rfl, by simp [Refused]⟩
  | _ => simp only [check, Option.some.injEq] at h; subst h; exact ⟨rfl, by simp [Refused]⟩

theorem init_read (c : Cell) (m : Msg) (hc : c.value = none) (hm : ¬ Refused m) : (c.init m).read = delivers m := by
  cases m <;> simp_all [Cell.init, Cell.read, delivers, Refused]

/-! ## The queue refines the specification -/

structure Inv (s : St) (q : Spec) (Q F : List Nat) : Prop where
  get : Chain s.cell s.get Q
  free : Chain s.cell s.free F
  put : s.put = Q.getLast?
  nodup : (Q ++ F).Nodup
  bound : ∀ p ∈ Q ++ F, p < s.fresh
  full : List.Forall₂ (fun p m => (s.cell p).read = delivers m) Q q.pending
  clean : ∀ p ∈ F, (s.cell p).value = none
  hold : ∀ t, (s.hold t).map Prod.snd = q.staged t
  held : ∀ t p m b, s.hold t = some (p, m, b) → p ∉ Q ++ F ∧ p < s.fresh ∧ s.cur ≠ some p ∧ ¬ Refused m ∧
    (b = false → (s.cell p).value = none) ∧ (b = true → (s.cell p).read = delivers m)
  apart : ∀ t u p m b m' b', s.hold t = some (p, m, b) → s.hold u = some (p, m', b') → t = u
  cur : ∀ p, s.cur = some p → p ∉ Q ++ F ∧ p < s.fresh ∧ ∃ m, q.cur = some m ∧ (s.cell p).read = delivers m
  idle : s.cur = none → q.cur = none
  all : ∀ p, p < s.fresh → p ∈ Q ++ F ∨ (∃ t m b, s.hold t = some (p, m, b)) ∨ s.cur = some p

/-- What the executive gets, as seen. -/
def deliverOut (m : Msg) : Out := match delivers m with | some m => .given m | none => .crash

theorem forall₂_congr {R S : Nat → Msg → Prop} {l : List Nat} {l' : List Msg} (h : ∀ p ∈ l, ∀ m, R p m → S p m) (f : List.Forall₂ R l l') :
    List.Forall₂ S l l' := by
  induction f with
  | nil => exact .nil
  | cons a _ ih => exact .cons (h _ (by simp) _ a) (ih (fun p hp => h p (by simp [hp])))

theorem held_upd {f : Nat → Option (Nat × Msg × Bool)} {t p x : Nat} {y : Option (Nat × Msg × Bool)} (h : ∃ u m b, f u = some (p, m, b))
    (ht : ∀ m b, f t = some (p, m, b) → p = x) (hx : p ≠ x ∨ ∃ m b, y = some (p, m, b)) : ∃ u m b, upd f t y u = some (p, m, b) := by
  obtain ⟨u, m, b, hu⟩ := h
  by_cases e : u = t
  · subst e
    rcases hx with hx | ⟨m, b, hx⟩
    · exact absurd (ht m b hu) hx
    · exact ⟨u, m, b, by simp [hx]⟩
  · exact ⟨u, m, b, by rw [upd_other _ _ e]; exact hu⟩

theorem inv_submit {s : St} {q : Spec} {Q F : List Nat} (i : Inv s q Q F) {t : Nat} {m : Msg} (ht : s.hold t = none) (hm : ¬ Refused m) :
    ∃ F', Inv { s.allocate.1 with hold := upd s.hold t (some (s.allocate.2, m, false)) } { q with staged := upd q.staged t (some (m, false)) } Q F' := by
  have hhold : ∀ p u, ((upd s.hold t (some (p, m, false))) u).map Prod.snd = upd q.staged t (some (m, false)) u := by
    intro p u
    by_cases e : u = t
    · subst e; simp
    · rw [upd_other _ _ e, upd_other _ _ e]; exact i.hold u
  cases F with
  | cons f F =>
    obtain ⟨f1, f2⟩ := i.free
    refine ⟨F, ?_⟩
    have ha : s.allocate = ({ s with free := (s.cell f).next }, f) := by simp [St.allocate, f1]
    rw [ha]
    have hn := i.nodup
    have hfQF : f ∉ Q ++ F := by
      have := (List.perm_middle.nodup_iff.1 hn)
      exact (List.nodup_cons.1 this).1
    have hsub : ∀ p, p ∈ Q ++ F → p ∈ Q ++ f :: F := by
      intro p hp; simp only [List.mem_append, List.mem_cons] at hp ⊢; tauto
    refine ⟨i.get, f2, i.put, ?_, fun p hp => i.bound p (hsub p hp), i.full, fun p hp => i.clean p (by simp [hp]), hhold f, ?_, ?_, ?_, i.idle, ?_⟩
    · exact (List.nodup_cons.1 (List.perm_middle.nodup_iff.1 hn)).2
    · intro u p m' b hu
      dsimp only at hu ⊢
      by_cases e : u = t
      · subst e
        simp only [upd_same, Option.some.injEq, Prod.mk.injEq] at hu
        obtain ⟨rfl, rfl, rfl⟩ := hu
        refine ⟨hfQF, i.bound f (by simp), fun h => (i.cur f h).1 (by simp), hm, fun _ => i.clean f (by simp), by simp⟩
      · rw [upd_other _ _ e] at hu
        obtain ⟨h1, h2⟩ := i.held u p m' b hu
        exact ⟨fun h => h1 (hsub p h), h2⟩
    · intro u v p m1 b1 m2 b2 hu hv
      dsimp only at hu hv
      by_cases e : u = t <;> by_cases e' : v = t
      · rw [e, e']
      · subst e
        rw [upd_other _ _ e'] at hv
        simp only [upd_same, Option.some.injEq, Prod.mk.injEq] at hu
        exact absurd (by rw [← hu.1]; simp) (i.held v p m2 b2 hv).1
      · subst e'
        rw [upd_other _ _ e] at hu
        simp only [upd_same, Option.some.injEq, Prod.mk.injEq] at hv
        exact absurd (by rw [← hv.1]; simp) (i.held u p m1 b1 hu).1
      · rw [upd_other _ _ e] at hu; rw [upd_other _ _ e'] at hv
        exact i.apart u v p m1 b1 m2 b2 hu hv
    · intro p hp
      obtain ⟨h1, h2⟩ := i.cur p hp
      exact ⟨fun h => h1 (hsub p h), h2⟩
    · intro p hp
      by_cases e : p = f
      · subst e; exact .inr (.inl ⟨t, m, false, by simp⟩)
      · rcases i.all p hp with h | h | h
        · left; simp only [List.mem_append, List.mem_cons] at h ⊢; tauto
        · exact .inr (.inl (held_upd (x := p + 1) h (by simp [ht]) (.inl (by omega))))
        · exact .inr (.inr h)
  | nil =>
    refine ⟨[], ?_⟩
    have f1 : s.free = none := i.free
    have ha : s.allocate = ({ s with fresh := s.fresh + 1, cell := upd s.cell s.fresh {} }, s.fresh) := by simp [St.allocate, f1]
    rw [ha]
    have hlt : ∀ p, p < s.fresh → upd s.cell s.fresh {} p = s.cell p := fun p hp => upd_other _ _ (by omega)
    have hQ : ∀ p ∈ Q, p < s.fresh := fun p hp => i.bound p (by simp [hp])
    refine ⟨chain_congr (fun p hp => by dsimp only; rw [hlt p (hQ p hp)]) i.get, f1, i.put, i.nodup, fun p hp => Nat.lt_succ_of_lt (i.bound p hp),
      forall₂_congr (fun p hp m h => by dsimp only; rw [hlt p (hQ p hp)]; exact h) i.full, by simp, hhold s.fresh, ?_, ?_, ?_, i.idle, ?_⟩
    · intro u p m' b hu
      dsimp only at hu ⊢
      by_cases e : u = t
      · subst e
        simp only [upd_same, Option.some.injEq, Prod.mk.injEq] at hu
        obtain ⟨rfl, rfl, rfl⟩ := hu
        refine ⟨fun h => ?_, Nat.lt_succ_self _, fun h => ?_, hm, fun _ => by simp, by simp⟩
        · have := i.bound _ h; omega
        · have := (i.cur _ h).2.1; omega
      · rw [upd_other _ _ e] at hu
        obtain ⟨h1, h2, h3, h4, h5, h6⟩ := i.held u p m' b hu
        exact ⟨h1, by omega, h3, h4, by rw [hlt p h2]; exact h5, by rw [hlt p h2]; exact h6⟩
    · intro u v p m1 b1 m2 b2 hu hv
      dsimp only at hu hv
      by_cases e : u = t <;> by_cases e' : v = t
      · rw [e, e']
      · subst e
        rw [upd_other _ _ e'] at hv
        simp only [upd_same, Option.some.injEq, Prod.mk.injEq] at hu
        have := (i.held v p m2 b2 hv).2.1; omega
      · subst e'
        rw [upd_other _ _ e] at hu
        simp only [upd_same, Option.some.injEq, Prod.mk.injEq] at hv
        have := (i.held u p m1 b1 hu).2.1; omega
      · rw [upd_other _ _ e] at hu; rw [upd_other _ _ e'] at hv
        exact i.apart u v p m1 b1 m2 b2 hu hv
    · intro p hp
      obtain ⟨h1, h2, m', h3, h4⟩ := i.cur p hp
      exact ⟨h1, by dsimp only; omega, m', h3, by dsimp only; rw [hlt p h2]; exact h4⟩
    · intro p hp
      dsimp only at hp
      by_cases e : p = s.fresh
      · subst e; exact .inr (.inl ⟨t, m, false, by simp⟩)
      · rcases i.all p (by omega) with h | h | h
        · exact .inl h
        · exact .inr (.inl (held_upd (x := p + 1) h (by simp [ht]) (.inl (by omega))))
        · exact .inr (.inr h)

theorem inv_init {s : St} {q : Spec} {Q F : List Nat} (i : Inv s q Q F) {t p : Nat} {m : Msg} (ht : s.hold t = some (p, m, false)) :
    Inv { s with cell := upd s.cell p ((s.cell p).init m), hold := upd s.hold t (some (p, m, true)) }
      { q with staged := upd q.staged t (some (m, true)) } Q F := by
  obtain ⟨h1, h2, h3, h4, h5, _⟩ := i.held t p m false ht
  simp only [List.mem_append, not_or] at h1
  have ne : ∀ {x}, x ∈ Q ++ F → upd s.cell p ((s.cell p).init m) x = s.cell x := fun {x} hx => upd_other _ _ (by
    rintro rfl; simp only [List.mem_append] at hx; tauto)
  refine ⟨chain_upd h1.1 i.get, chain_upd h1.2 i.free, i.put, i.nodup, i.bound,
    forall₂_congr (fun x hx m h => by dsimp only; rw [ne (by simp [hx])]; exact h) i.full,
    fun x hx => by dsimp only; rw [ne (by simp [hx])]; exact i.clean x hx, ?_, ?_, ?_, ?_, i.idle, ?_⟩
  · intro u
    by_cases e : u = t
    · subst e; simp
    · dsimp only; rw [upd_other _ _ e, upd_other _ _ e]; exact i.hold u
  · intro u p' m' b hu
    dsimp only at hu ⊢
    by_cases e : u = t
    · subst e
      simp only [upd_same, Option.some.injEq, Prod.mk.injEq] at hu
      obtain ⟨rfl, rfl, rfl⟩ := hu
      refine ⟨by simp [h1], h2, h3, h4, by simp, fun _ => ?_⟩
      rw [upd_same]; exact init_read _ _ (h5 rfl) h4
    · rw [upd_other _ _ e] at hu
      obtain ⟨g1, g2, g3, g4, g5, g6⟩ := i.held u p' m' b hu
      have : p' ≠ p := by rintro rfl; exact e (i.apart _ _ _ _ _ _ _ hu ht)
      rw [upd_other _ _ this]
      exact ⟨g1, g2, g3, g4, g5, g6⟩
  · intro u v p' m1 b1 m2 b2 hu hv
    dsimp only at hu hv
    have conv : ∀ w m' b', upd s.hold t (some (p, m, true)) w = some (p', m', b') → ∃ m'' b'', s.hold w = some (p', m'', b'') := by
      intro w m' b' hw
      by_cases e : w = t
      · subst e
        simp only [upd_same, Option.some.injEq, Prod.mk.injEq] at hw
        exact ⟨m, false, by rw [← hw.1]; exact ht⟩
      · rw [upd_other _ _ e] at hw; exact ⟨_, _, hw⟩
    obtain ⟨_, _, c1⟩ := conv u m1 b1 hu
    obtain ⟨_, _, c2⟩ := conv v m2 b2 hv
    exact i.apart _ _ _ _ _ _ _ c1 c2
  · intro x hx
    obtain ⟨g1, g2, m', g3, g4⟩ := i.cur x hx
    have : x ≠ p := by rintro rfl; exact h3 hx
    exact ⟨g1, g2, m', g3, by dsimp only; rw [upd_other _ _ this]; exact g4⟩
  · intro x hx
    rcases i.all x hx with h | h | h
    · exact .inl h
    · refine .inr (.inl (held_upd (x := p) h (fun m' b hb => by rw [ht] at hb; simp at hb; exact hb.1.symm) ?_))
      by_cases e : x = p
      · exact .inr ⟨m, true, by rw [e]⟩
      · exact .inl e
    · exact .inr (.inr h)

/-- The memory after `put`: only `next` fields differ. -/
theorem put_cell (s : St) (p x : Nat) : ∃ n, (s.putEntry p).cell x = { s.cell x with next := n } ∧ (x ≠ p → s.put ≠ some x → n = (s.cell x).next) := by
  have h1 : ∃ n, upd s.cell p { s.cell p with next := none } x = { s.cell x with next := n } ∧ (x ≠ p → n = (s.cell x).next) := by
    by_cases e : x = p
    · subst e; exact ⟨none, by simp, by simp⟩
    · exact ⟨(s.cell x).next, by rw [upd_other _ _ e], fun _ => rfl⟩
  obtain ⟨n, hn, hn'⟩ := h1
  unfold St.putEntry
  dsimp only
  cases hq : s.put with
  | none => exact ⟨n, hn, fun h _ => hn' h⟩
  | some q =>
    dsimp only
    by_cases e : x = q
    · subst e
      exact ⟨some p, by rw [upd_same, hn], fun _ h => absurd rfl h⟩
    · exact ⟨n, by rw [upd_other _ _ e]; exact hn, fun h _ => hn' h⟩

theorem inv_put {s : St} {q : Spec} {Q F : List Nat} (i : Inv s q Q F) {t p : Nat} {m : Msg} (ht : s.hold t = some (p, m, true)) :
    Inv { s.putEntry p with hold := upd s.hold t none } { q with staged := upd q.staged t none, pending := q.pending ++ [m] } (Q ++ [p]) F := by
  obtain ⟨h1, h2, h3, h4, _, h6⟩ := i.held t p m true ht
  have h1' := h1
  simp only [List.mem_append, not_or] at h1'
  have rd : ∀ x, ((s.putEntry p).cell x).read = (s.cell x).read := fun x => by
    obtain ⟨n, hn, _⟩ := put_cell s p x; rw [hn]; exact read_next _ _
  have vl : ∀ x, ((s.putEntry p).cell x).value = (s.cell x).value := fun x => by
    obtain ⟨n, hn, _⟩ := put_cell s p x; rw [hn]
  have hQF : ∀ x ∈ Q, x ∉ F := by
    intro x hx hf
    exact (List.nodup_append.1 i.nodup).2.2 x hx x hf rfl
  refine ⟨?_, ?_, ?_, ?_, ?_, ?_, ?_, ?_, ?_, ?_, ?_, i.idle, ?_⟩
  · -- the queue
    dsimp only
    rcases List.eq_nil_or_concat Q with rfl | ⟨l, x, rfl⟩
    · have hp : s.put = none := i.put
      have hg : s.get = none := i.get
      simp only [St.putEntry, hp, hg, List.nil_append]
      exact ⟨rfl, by simp [Chain]⟩
    · rw [List.concat_eq_append] at *
      have hp : s.put = some x := by rw [i.put]; simp
      obtain ⟨g, hg⟩ : ∃ g, s.get = some g := by
        have := i.get
        cases l with
        | nil => exact ⟨_, this.1⟩
        | cons y l => exact ⟨_, this.1⟩
      have hi := i.get
      rw [hg] at hi
      simp only [St.putEntry, hp, hg]
      exact chain_snoc hi (List.nodup_append.1 i.nodup).1 h1'.1
  · -- the free list
    dsimp only
    refine chain_congr (fun x hx => ?_) (show Chain s.cell s.free F from i.free)
    obtain ⟨n, hn, hn'⟩ := put_cell s p x
    rw [hn]
    refine hn' (by rintro rfl; exact h1'.2 hx) ?_
    rw [i.put]
    intro h
    exact hQF x (List.mem_of_getLast? h) hx
  · simp [St.putEntry]
  · have : (p :: (Q ++ F)).Nodup := List.nodup_cons.2 ⟨h1, i.nodup⟩
    rw [List.append_assoc]
    exact List.perm_middle.nodup_iff.2 this
  · intro x hx
    have hx' : x = p ∨ x ∈ Q ++ F := by simp only [List.mem_append, List.mem_cons, List.not_mem_nil, or_false] at hx ⊢; tauto
    rcases hx' with rfl | hx'
    · exact h2
    · exact i.bound x hx'
  · dsimp only
    refine List.rel_append (forall₂_congr (fun x _ m h => by rw [rd]; exact h) i.full) (.cons ?_ .nil)
    rw [rd]; exact h6 rfl
  · intro x hx; dsimp only; rw [vl]; exact i.clean x hx
  · intro u
    by_cases e : u = t
    · subst e; simp
    · dsimp only; rw [upd_other _ _ e, upd_other _ _ e]; exact i.hold u
  · intro u p' m' b hu
    dsimp only at hu ⊢
    by_cases e : u = t
    · subst e; simp at hu
    · rw [upd_other _ _ e] at hu
      obtain ⟨g1, g2, g3, g4, g5, g6⟩ := i.held u p' m' b hu
      have hne : p' ≠ p := by rintro rfl; exact e (i.apart _ _ _ _ _ _ _ hu ht)
      refine ⟨?_, g2, g3, g4, by rw [vl]; exact g5, by rw [rd]; exact g6⟩
      simp only [List.mem_append, List.mem_cons, List.not_mem_nil, or_false] at g1 ⊢; tauto
  · intro u v p' m1 b1 m2 b2 hu hv
    dsimp only at hu hv
    by_cases e : u = t
    · subst e; simp at hu
    by_cases e' : v = t
    · subst e'; simp at hv
    rw [upd_other _ _ e] at hu; rw [upd_other _ _ e'] at hv
    exact i.apart _ _ _ _ _ _ _ hu hv
  · intro x hx
    obtain ⟨g1, g2, m', g3, g4⟩ := i.cur x hx
    have hne : x ≠ p := by rintro rfl; exact h3 hx
    refine ⟨?_, g2, m', g3, by dsimp only; rw [rd]; exact g4⟩
    simp only [List.mem_append, List.mem_cons, List.not_mem_nil, or_false] at g1 ⊢; tauto
  · intro x hx
    by_cases e : x = p
    · left; simp [e]
    · rcases i.all x hx with h | h | h
      · left; simp only [List.mem_append, List.mem_cons, List.not_mem_nil, or_false] at h ⊢; tauto
      · exact .inr (.inl (held_upd (x := p) h (fun m' b hb => by rw [ht] at hb; simp at hb; exact hb.1.symm) (.inl e)))
      · exact .inr (.inr h)

theorem inv_get {s : St} {q : Spec} {Q F : List Nat} {p : Nat} (i : Inv s q (p :: Q) F) (hcur : s.cur = none) :
    ∃ s' m l, s.getEntry = (s', some (some p)) ∧ q.pending = m :: l ∧ Inv { s' with cur := some p } { q with cur := some m, pending := l } Q F := by
  obtain ⟨g1, g2⟩ := i.get
  obtain ⟨m, l, hm, hl, hpend⟩ : ∃ m l, (s.cell p).read = delivers m ∧ List.Forall₂ (fun p m => (s.cell p).read = delivers m) Q l ∧ q.pending = m :: l := by
    have := i.full
    cases hq : q.pending with
    | nil => rw [hq] at this; cases this
    | cons m l => rw [hq] at this; cases this with | cons a b => exact ⟨m, l, a, b, rfl⟩
  have hsub : ∀ x, x ∈ Q ++ F → x ∈ p :: Q ++ F := by intro x hx; simp only [List.cons_append, List.mem_cons]; exact .inr hx
  have hn := List.nodup_cons.1 (by simpa using i.nodup : (p :: (Q ++ F)).Nodup)
  have fin : ∀ s' : St, s'.cell = s.cell → s'.free = s.free → s'.fresh = s.fresh → s'.hold = s.hold → Chain s.cell s'.get Q → s'.put = Q.getLast? →
      Inv { s' with cur := some p } { q with cur := some m, pending := l } Q F := by
    intro s' e1 e2 e3 e4 e5 e6
    refine ⟨by dsimp only; rw [e1]; exact e5, by dsimp only; rw [e1, e2]; exact i.free, e6, hn.2, fun x hx => by dsimp only; rw [e3]; exact i.bound x (hsub x hx),
      by dsimp only; rw [e1]; exact hl, fun x hx => by dsimp only; rw [e1]; exact i.clean x hx, by dsimp only; rw [e4]; exact i.hold, ?_, by dsimp only; rw [e4]; exact i.apart, ?_, by simp, ?_⟩
    · dsimp only; rw [e1, e3, e4]
      intro u p' m' b hu
      obtain ⟨k1, k2, _, k4, k5, k6⟩ := i.held u p' m' b hu
      refine ⟨fun h => k1 (hsub _ h), k2, ?_, k4, k5, k6⟩
      intro h
      injection h with h
      subst h
      exact k1 (by simp)
    · dsimp only; rw [e1, e3]
      intro x hx
      injection hx with hx
      subst hx
      exact ⟨hn.1, i.bound p (by simp), m, rfl, hm⟩
    · dsimp only; rw [e3, e4]
      intro x hx
      rcases i.all x hx with h | h | h
      · rcases List.mem_cons.1 h with rfl | h
        · exact .inr (.inr rfl)
        · exact .inl h
      · exact .inr (.inl h)
      · rw [hcur] at h; simp at h
  cases hnx : (s.cell p).next with
  | some r =>
    have hg : s.getEntry = ({ s with get := some r }, some (some p)) := by simp [St.getEntry, g1, hnx]
    refine ⟨_, m, l, hg, hpend, fin _ rfl rfl rfl rfl (by rw [← hnx]; exact g2) ?_⟩
    have := i.put
    cases Q with
    | nil => rw [hnx] at g2; simp [Chain] at g2
    | cons y Q => dsimp only; rw [this, List.getLast?_cons_cons]
  | none =>
    have hQ : Q = [] := by
      cases Q with
      | nil => rfl
      | cons y Q => rw [hnx] at g2; simp [Chain] at g2
    subst hQ
    have hp : s.put = some p := by rw [i.put]; rfl
    have hg : s.getEntry = ({ s with get := none, put := none }, some (some p)) := by simp [St.getEntry, g1, hnx, hp]
    exact ⟨_, m, l, hg, hpend, fin _ rfl rfl rfl rfl rfl rfl⟩

theorem inv_release {s : St} {q : Spec} {Q F : List Nat} {p : Nat} (i : Inv s q Q F) (hc : s.cur = some p) :
    Inv { s.release p with cur := none } { q with cur := none } Q (p :: F) := by
  obtain ⟨c1, c2, m, c3, c4⟩ := i.cur p hc
  have c1' := c1
  simp only [List.mem_append, not_or] at c1'
  have ne : ∀ {x}, x ≠ p → ∀ y, upd s.cell p y x = s.cell x := fun {x} h y => upd_other _ _ h
  have nQ : ∀ x ∈ Q, x ≠ p := by rintro x hx rfl; exact c1'.1 hx
  have nF : ∀ x ∈ F, x ≠ p := by rintro x hx rfl; exact c1'.2 hx
  unfold St.release
  refine ⟨chain_upd c1'.1 i.get, ⟨rfl, ?_⟩, i.put, ?_, ?_, ?_, ?_, i.hold, ?_, i.apart, by simp, fun _ => rfl, ?_⟩
  · dsimp only; rw [upd_same]; exact chain_upd c1'.2 i.free
  · exact List.perm_middle.nodup_iff.2 (List.nodup_cons.2 ⟨c1, i.nodup⟩)
  · intro x hx
    have hx' : x = p ∨ x ∈ Q ++ F := by simp only [List.mem_append, List.mem_cons] at hx ⊢; tauto
    rcases hx' with rfl | hx'
    · exact c2
    · exact i.bound x hx'
  · exact forall₂_congr (fun x hx m h => by dsimp only; rw [ne (nQ x hx)]; exact h) i.full
  · intro x hx
    dsimp only
    rcases List.mem_cons.1 hx with rfl | hx
    · rw [upd_same]; rfl
    · rw [ne (nF x hx)]; exact i.clean x hx
  · intro u p' m' b hu
    obtain ⟨k1, k2, k3, k4, k5, k6⟩ := i.held u p' m' b hu
    have : p' ≠ p := by rintro rfl; exact k3 hc
    dsimp only
    rw [ne this]
    refine ⟨?_, k2, by simp, k4, k5, k6⟩
    simp only [List.mem_append, List.mem_cons] at k1 ⊢; tauto
  · intro x hx
    rcases i.all x hx with h | h | h
    · left; simp only [List.mem_append, List.mem_cons] at h ⊢; tauto
    · exact .inr (.inl h)
    · rw [hc] at h; injection h with h; left; simp [h]

theorem flush_loop : ∀ (Q : List Nat) {s : St} {F : List Nat} (n : Nat), Q.length ≤ n → Chain s.cell s.get Q → Chain s.cell s.free F → (Q ++ F).Nodup →
    (s.flushLoop n).get = none ∧ Chain (s.flushLoop n).cell (s.flushLoop n).free (Q.reverse ++ F) ∧ (∀ x, x ∉ Q → (s.flushLoop n).cell x = s.cell x) ∧
    (∀ x ∈ Q, ((s.flushLoop n).cell x).value = none) ∧ (s.flushLoop n).fresh = s.fresh ∧ (s.flushLoop n).hold = s.hold ∧ (s.flushLoop n).cur = s.cur := by
  intro Q
  induction Q with
  | nil =>
    intro s F n _ hg hf _
    have : s.flushLoop n = s := by
      cases n with
      | zero => rfl
      | succ n => simp only [St.flushLoop, show s.get = none from hg]
    rw [this]
    exact ⟨hg, hf, fun _ _ => rfl, by simp, rfl, rfl, rfl⟩
  | cons p Q ih =>
    intro s F n hn hg hf hnd
    obtain ⟨g1, g2⟩ := hg
    cases n with
    | zero => simp at hn
    | succ n =>
      have hnd' := List.nodup_cons.1 (by simpa using hnd : (p :: (Q ++ F)).Nodup)
      have hpQ : p ∉ Q := fun h => hnd'.1 (by simp [h])
      have hpF : p ∉ F := fun h => hnd'.1 (by simp [h])
      simp only [St.flushLoop, g1]
      generalize hs' : (({ s with get := (s.cell p).next } : St).release p) = s'
      have e1 : s'.cell = upd s.cell p { (s.cell p).reset with next := s.free } := by rw [← hs']; rfl
      have e2 : s'.get = (s.cell p).next := by rw [← hs']; rfl
      have e3 : s'.free = some p := by rw [← hs']; rfl
      obtain ⟨k1, k2, k3, k4, k5, k6, k7⟩ := ih (s := s') (F := p :: F) n (by simpa using hn) (by rw [e1, e2]; exact chain_upd hpQ g2)
        (by rw [e1, e3]; exact ⟨rfl, by rw [upd_same]; exact chain_upd hpF hf⟩)
        (List.perm_middle.nodup_iff.2 (List.nodup_cons.2 ⟨hnd'.1, hnd'.2⟩))
      refine ⟨k1, by simpa using k2, fun x hx => ?_, fun x hx => ?_, by rw [k5, ← hs']; rfl, by rw [k6, ← hs']; rfl, by rw [k7, ← hs']; rfl⟩
      · rw [List.mem_cons, not_or] at hx
        rw [k3 x hx.2, e1, upd_other _ _ hx.1]
      · rcases List.mem_cons.1 hx with rfl | hx
        · rw [k3 x hpQ, e1, upd_same]; rfl
        · exact k4 x hx

theorem nodup_length {l : List Nat} {n : Nat} (h : l.Nodup) (hb : ∀ x ∈ l, x < n) : l.length ≤ n := by
  have := (h.subperm (l₂ := List.range n) (fun x hx => List.mem_range.2 (hb x hx))).length_le
  simpa using this

theorem inv_flush {s : St} {q : Spec} {Q F : List Nat} (i : Inv s q Q F) : Inv s.flush { q with pending := [] } [] (Q.reverse ++ F) := by
  have hnd := i.nodup
  have hlen : Q.length ≤ s.fresh := nodup_length (List.nodup_append.1 hnd).1 (fun x hx => i.bound x (by simp [hx]))
  obtain ⟨k1, k2, k3, k4, k5, k6, k7⟩ := flush_loop Q s.fresh hlen i.get i.free hnd
  have mem : ∀ x, x ∈ [] ++ (Q.reverse ++ F) ↔ x ∈ Q ++ F := by intro x; simp
  have nF : ∀ x, x ∈ F → x ∉ Q := fun x hf hq => (List.nodup_append.1 hnd).2.2 x hq x hf rfl
  unfold St.flush
  refine ⟨k1, k2, rfl, ?_, ?_, .nil, ?_, by dsimp only; rw [k6]; exact i.hold, ?_, by dsimp only; rw [k6]; exact i.apart, ?_, by dsimp only; rw [k7]; exact i.idle, by dsimp only; rw [k5, k6, k7]; intro x hx; rw [mem]; exact i.all x hx⟩
  · exact ((List.reverse_perm Q).append_right F).nodup_iff.2 hnd
  · intro x hx; dsimp only; rw [k5]; exact i.bound x ((mem x).1 hx)
  · intro x hx
    dsimp only
    rcases List.mem_append.1 hx with hx | hx
    · exact k4 x (by simpa using hx)
    · rw [k3 x (nF x hx)]; exact i.clean x hx
  · dsimp only; rw [k5, k6, k7]
    intro u p m b hu
    obtain ⟨g1, g2, g3, g4, g5, g6⟩ := i.held u p m b hu
    rw [mem, k3 p (fun h => g1 (by simp [h]))]
    exact ⟨g1, g2, g3, g4, g5, g6⟩
  · dsimp only; rw [k5, k7]
    intro p hp
    obtain ⟨g1, g2, g3⟩ := i.cur p hp
    rw [mem, k3 p (fun h => g1 (by simp [h]))]
    exact ⟨g1, g2, g3⟩

/-- Each step is a step of the specification, with the same result to be seen. -/
theorem step_sim {s s' : St} {q : Spec} {Q F : List Nat} {o : Op} {r : Out} (i : Inv s q Q F) (h : s.step o = some (s', r)) :
    ∃ q', Spec.Step deliverOut q o q' r ∧ ∃ Q' F', Inv s' q' Q' F' := by
  cases o with
  | submit t m =>
    simp only [St.step] at h
    cases hh : s.hold t with
    | some x => simp [hh] at h
    | none =>
      have hq : q.staged t = none := by rw [← i.hold, hh]; rfl
      rw [hh] at h
      cases hc : check m with
      | none =>
        simp only [hc, Option.some.injEq, Prod.mk.injEq] at h
        obtain ⟨rfl, rfl⟩ := h
        exact ⟨q, .refuse hq ((check_refused m).1 hc), Q, F, i⟩
      | some m' =>
        simp only [hc, Option.some.injEq, Prod.mk.injEq] at h
        obtain ⟨rfl, rfl⟩ := h
        have hn : ¬ Refused m := fun h => by rw [(check_refused m).2 h] at hc; simp at hc
        obtain ⟨F', hF⟩ := inv_submit i hh (check_norm hc).2
        exact ⟨_, .submit hq hn (check_norm hc).1, Q, F', hF⟩
  | init t =>
    simp only [St.step] at h
    split at h
    · next p m hh =>
      simp only [Option.some.injEq, Prod.mk.injEq] at h
      obtain ⟨rfl, rfl⟩ := h
      exact ⟨_, .init (by rw [← i.hold, hh]; rfl), Q, F, inv_init i hh⟩
    · simp at h
  | put t =>
    simp only [St.step] at h
    split at h
    · next p m hh =>
      simp only [Option.some.injEq, Prod.mk.injEq] at h
      obtain ⟨rfl, rfl⟩ := h
      exact ⟨_, .put (by rw [← i.hold, hh]; rfl), _, F, inv_put i hh⟩
    · simp at h
  | isEmpty =>
    simp only [St.step, Option.some.injEq, Prod.mk.injEq] at h
    obtain ⟨rfl, rfl⟩ := h
    refine ⟨q, ?_, Q, F, i⟩
    have : s.get.isNone = q.pending.isEmpty := by
      have hf := i.full
      have hg := i.get
      generalize q.pending = l at hf
      cases Q with
      | nil => cases hf; rw [show s.get = none from hg]; simp
      | cons x Q => cases hf; rw [hg.1]; simp
    rw [this]; exact .isEmpty
  | get =>
    simp only [St.step] at h
    cases hcur : s.cur with
    | some x => simp [hcur] at h
    | none =>
      rw [hcur] at h
      cases Q with
      | nil =>
        have hg : s.get = none := i.get
        have hp : q.pending = [] := List.forall₂_nil_left_iff.1 i.full
        simp only [St.getEntry, hg, Option.some.injEq, Prod.mk.injEq] at h
        obtain ⟨rfl, rfl⟩ := h
        exact ⟨q, .getNone (i.idle hcur) hp, [], F, i⟩
      | cons p Q =>
        obtain ⟨s'', m, l, h1, h2, h3⟩ := inv_get i hcur
        simp only [h1, Option.some.injEq, Prod.mk.injEq] at h
        obtain ⟨rfl, rfl⟩ := h
        exact ⟨_, .get (i.idle hcur) h2, Q, F, h3⟩
  | read =>
    simp only [St.step] at h
    cases hcur : s.cur with
    | none => simp [hcur] at h
    | some p =>
      obtain ⟨_, _, m, c1, c2⟩ := i.cur p hcur
      rw [hcur] at h
      dsimp only at h
      rw [c2] at h
      have : s' = s ∧ r = deliverOut m := by
        unfold deliverOut
        cases hd : delivers m with
        | none => simp only [hd, Option.some.injEq, Prod.mk.injEq] at h; exact ⟨h.1.symm, h.2.symm⟩
        | some m' => simp only [hd, Option.some.injEq, Prod.mk.injEq] at h; exact ⟨h.1.symm, h.2.symm⟩
      obtain ⟨rfl, rfl⟩ := this
      exact ⟨q, .read c1, Q, F, i⟩
  | release =>
    simp only [St.step] at h
    cases hcur : s.cur with
    | none => simp [hcur] at h
    | some p =>
      obtain ⟨_, _, m, c1, c2⟩ := i.cur p hcur
      simp only [hcur, Option.some.injEq, Prod.mk.injEq] at h
      obtain ⟨rfl, rfl⟩ := h
      exact ⟨_, .release c1, Q, p :: F, inv_release i hcur⟩
  | flush =>
    simp only [St.step, Option.some.injEq, Prod.mk.injEq] at h
    obtain ⟨rfl, rfl⟩ := h
    exact ⟨_, .flush, _, _, inv_flush i⟩

theorem inv_start : Inv {} {} [] [] := by
  refine ⟨rfl, rfl, rfl, by simp, by simp, .nil, by simp, fun _ => rfl, by simp, by simp, by simp, fun _ => rfl, by simp⟩

theorem run_sim : ∀ (os : List Op) {s s' : St} {q : Spec} {Q F : List Nat} {rs : List Out}, Inv s q Q F → s.run os = some (s', rs) →
    ∃ q', Spec.Run deliverOut q os q' rs ∧ ∃ Q' F', Inv s' q' Q' F' := by
  intro os
  induction os with
  | nil =>
    intro s s' q Q F rs i h
    simp only [St.run, Option.some.injEq, Prod.mk.injEq] at h
    obtain ⟨rfl, rfl⟩ := h
    exact ⟨q, .nil, Q, F, i⟩
  | cons o os ih =>
    intro s s' q Q F rs i h
    simp only [St.run] at h
    split at h
    · simp at h
    · next s1 h1 =>
      simp only [Option.some.injEq, Prod.mk.injEq] at h
      obtain ⟨rfl, rfl⟩ := h
      obtain ⟨q', hq, hi⟩ := step_sim i h1
      exact ⟨q', .crash hq, hi⟩
    · next s1 r hr h1 =>
      split at h
      · next s2 rs' h2 =>
        simp only [Option.some.injEq, Prod.mk.injEq] at h
        obtain ⟨rfl, rfl⟩ := h
        obtain ⟨q1, hq, Q1, F1, hi⟩ := step_sim i h1
        obtain ⟨q2, hq2, hi2⟩ := ih hi h2
        exact ⟨q2, .cons hq hr hq2, hi2⟩
      · simp at h

/-- **C55**, with the one kind of entry that fails: whatever the interleaving of any number of producers, the consumer and flushes, what is
seen (what is refused, whether the queue is empty, what the executive is given, in which order) is what is seen of a first-in-first-out queue of the
submissions themselves, `deliverOut` saying that each comes out as it went in except that taking out an accepted message is an assertion
failure. -/
theorem c55_refines (os : List Op) (s : St) (rs : List Out) (h : ({} : St).run os = some (s, rs)) :
    ∃ q, Spec.Run deliverOut {} os q rs :=
  (run_sim os inv_start h).imp fun _ h => h.1

/-- Nothing about accepted messages is submitted. -/
def NoAccept (os : List Op) : Prop := ∀ t m h, Op.submit t (.acceptMsg m h) ∉ os

/-- What is waiting, staged or being looked at is no accepted message. -/
structure Spec.Free (q : Spec) : Prop where
  pending : ∀ m h, Msg.acceptMsg m h ∉ q.pending
  staged : ∀ t m h b, q.staged t ≠ some (.acceptMsg m h, b)
  cur : ∀ m h, q.cur ≠ some (.acceptMsg m h)

theorem free_run {os : List Op} {q q' : Spec} {rs : List Out} (hn : NoAccept os) (hf : q.Free) (h : Spec.Run deliverOut q os q' rs) :
    Spec.Run .given q os q' rs ∧ .crash ∉ rs := by
  have stp : ∀ {q q' : Spec} {o : Op} {r : Out}, (∀ t m h, o ≠ .submit t (.acceptMsg m h)) → q.Free → Spec.Step deliverOut q o q' r →
      Spec.Step .given q o q' r ∧ q'.Free ∧ r ≠ .crash := by
    intro q q' o r ho hf h
    cases h with
    | refuse a b => exact ⟨.refuse a b, hf, by simp⟩
    | @submit t m m' a b c =>
      refine ⟨.submit a b c, ⟨hf.pending, ?_, hf.cur⟩, by simp⟩
      intro u m1 h1 b1 hu
      dsimp only at hu
      by_cases e : u = t
      · subst e
        simp only [upd_same, Option.some.injEq, Prod.mk.injEq] at hu
        obtain ⟨rfl, rfl⟩ := hu
        cases m with
        | acceptMsg m h => exact ho u m h rfl
        | commandAck _ _ => obtain ⟨_, h, _⟩ := c; simp at h
        | _ => simp [Norm] at c
      · rw [upd_other _ _ e] at hu; exact hf.staged u m1 h1 b1 hu
    | @init t m a =>
      refine ⟨.init a, ⟨hf.pending, ?_, hf.cur⟩, by simp⟩
      intro u m1 h1 b1 hu
      dsimp only at hu
      by_cases e : u = t
      · subst e
        simp only [upd_same, Option.some.injEq, Prod.mk.injEq] at hu
        obtain ⟨rfl, rfl⟩ := hu
        exact hf.staged _ _ _ _ a
      · rw [upd_other _ _ e] at hu; exact hf.staged u m1 h1 b1 hu
    | @put t m a =>
      refine ⟨.put a, ⟨?_, ?_, hf.cur⟩, by simp⟩
      · intro m1 h1 hm
        rcases List.mem_append.1 hm with hm | hm
        · exact hf.pending m1 h1 hm
        · rw [List.mem_singleton] at hm; subst hm; exact hf.staged _ _ _ _ a
      · intro u m1 h1 b1 hu
        dsimp only at hu
        by_cases e : u = t
        · subst e; simp at hu
        · rw [upd_other _ _ e] at hu; exact hf.staged u m1 h1 b1 hu
    | isEmpty => exact ⟨.isEmpty, hf, by simp⟩
    | getNone a b => exact ⟨.getNone a b, hf, by simp⟩
    | get a b =>
      refine ⟨.get a b, ⟨fun m h hm => hf.pending m h (by rw [b]; simp [hm]), hf.staged, ?_⟩, by simp⟩
      intro m h hc
      injection hc with hc
      exact hf.pending m h (by rw [b, hc]; simp)
    | @read m a =>
      have : deliverOut m = .given m := by
        clear h
        cases m with
        | acceptMsg m h => exact absurd a (hf.cur m h)
        | _ => rfl
      rw [this]
      exact ⟨.read a, hf, by simp⟩
    | release a => exact ⟨.release a, ⟨hf.pending, hf.staged, by simp⟩, by simp⟩
    | flush => exact ⟨.flush, ⟨by simp, hf.staged, hf.cur⟩, by simp⟩
  induction h with
  | nil => exact ⟨.nil, by simp⟩
  | cons a b c ih =>
    obtain ⟨k1, k2, k3⟩ := stp (fun t m h e => hn t m h (by simp [e])) hf a
    obtain ⟨g1, g2⟩ := ih (fun t m h e => hn t m h (by simp [e])) k2
    exact ⟨.cons k1 k3 g1, by simp only [List.mem_cons, not_or]; exact ⟨fun h => k3 h.symm, g2⟩⟩
  | crash a => exact absurd rfl (stp (fun t m h e => hn t m h (by simp [e])) hf a).2.2

/-- **C55.** As long as no message is accepted: what is seen of the input queue is what is seen of a first-in-first-out queue in which everything
comes out exactly as it went in; no assertion ever fails. -/
theorem c55_fifo_partial (os : List Op) (s : St) (rs : List Out) (hn : NoAccept os) (h : ({} : St).run os = some (s, rs)) :
    (∃ q, Spec.Run .given {} os q rs) ∧ .crash ∉ rs := by
  obtain ⟨q, hq⟩ := c55_refines os s rs h
  obtain ⟨h1, h2⟩ := free_run hn ⟨by simp, by simp, by simp⟩ hq
  exact ⟨⟨q, h1⟩, h2⟩

/-- **C55 fails** for accepted messages: `notifyMessageAccepted` with a message and a handle, processed, is always an assertion failure, as the
entry does not get the handle. -/
theorem c55_accept_crashes (m : Nat) (h : List Char) (hm : m ≠ 0) (hh : h ≠ []) :
    ∃ s, ({} : St).run [.submit 1 (.acceptMsg m h), .init 1, .put 1, .get, .read] = some (s, [.silent, .silent, .silent, .got true, .crash]) := by
  cases m with
  | zero => exact absurd rfl hm
  | succ m =>
    cases h with
    | nil => exact absurd rfl hh
    | cons c h => exact ⟨_, rfl⟩

/-- **C55.** In every history no two producers, and no producer and the consumer, hold the same entry, and nobody's entry can be reached from the
queue or from the free list; and no entry ever made is lost. -/
theorem c55_private (os : List Op) (s : St) (rs : List Out) (h : ({} : St).run os = some (s, rs)) :
    ∃ Q F, Chain s.cell s.get Q ∧ Chain s.cell s.free F ∧ (Q ++ F).Nodup ∧
      (∀ t p m b, s.hold t = some (p, m, b) → p ∉ Q ++ F ∧ s.cur ≠ some p ∧ ∀ u m' b', s.hold u = some (p, m', b') → u = t) ∧
      (∀ p, s.cur = some p → p ∉ Q ++ F) ∧
      ∀ p, p < s.fresh → p ∈ Q ++ F ∨ (∃ t m b, s.hold t = some (p, m, b)) ∨ s.cur = some p := by
  obtain ⟨q, _, Q, F, i⟩ := run_sim os inv_start h
  refine ⟨Q, F, i.get, i.free, i.nodup, fun t p m b ht => ?_, fun p hp => (i.cur p hp).1, i.all⟩
  obtain ⟨h1, _, h3, _⟩ := i.held t p m b ht
  exact ⟨h1, h3, fun u m' b' hu => i.apart _ _ _ _ _ _ _ hu ht⟩

/-- Two producers overlapping, an entry reused, results in order. -/
example : ∃ s, ({} : St).run [.submit 1 (.lookup 4 (.other 2)), .submit 2 (.commandAck 9 80), .init 2, .put 2, .init 1, .get, .put 1, .read, .release,
    .submit 2 (.mark 3), .init 2, .put 2, .get, .read, .release, .isEmpty, .get, .read, .release, .isEmpty] =
    some (s, [.silent, .silent, .silent, .silent, .silent, .got true, .silent, .given (.commandAck 9 57), .silent, .silent, .silent, .silent, .got true,
      .given (.lookup 4 (.other 2)), .silent, .empty false, .got true, .given (.mark 3), .silent, .empty true]) := ⟨_, rfl⟩

/-- **C55 fails** for `flush` of the serialised queue: unless the queue is empty the call never returns, for it holds the queue's mutex and `release`
locks it again. -/
theorem c55_flush_deadlock (n : Nat) : runLocks false (flushLocks n) = if n = 0 then some false else none := by
  cases n with
  | zero => rfl
  | succ n => simp [flushLocks, List.replicate_succ, runLocks]

end Verif.Input
