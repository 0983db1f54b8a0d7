import Verif.Timepoint.Spec
import Mathlib.Data.List.Induction
import Mathlib.Tactic.Common
/-!
C75: timepoints of nodes.
-/
namespace Verif.Timepoint

variable {T : Type}

/-- The keys of timepoints. -/
def keys (l : List (Tp T)) : List (St × Bool) := l.map fun p => (p.state, p.isEnd)

theorem keys_resetAll (l : List (Tp T)) : keys (resetAll l).1 = keys l := by
  induction l with
  | nil => rfl
  | cons p ps ih => simp only [keys, resetAll, List.map_cons] at ih ⊢; rw [ih]; rfl

theorem keys_updateAll (o n : St) (t : T) (l : List (Tp T)) : keys (updateAll o n t l).1 = keys l := by
  induction l with
  | nil => rfl
  | cons p ps ih =>
    simp only [keys, updateAll, List.map_cons] at ih ⊢
    split <;> simp only [List.map_cons, ih, Tp.set]

theorem value_resetAll (l : List (Tp T)) (st : St) (e : Bool) :
    ((resetAll l).1.find? (fun p => decide (st = p.state) && decide (e = p.isEnd))) =
      (l.find? (fun p => decide (st = p.state) && decide (e = p.isEnd))).map Tp.reset := by
  induction l with
  | nil => rfl
  | cons p ps ih =>
    simp only [resetAll, List.find?_cons, show p.reset.state = p.state from rfl, show p.reset.isEnd = p.isEnd from rfl]
    split
    · rfl
    · exact ih

theorem value_updateAll (o n : St) (t : T) (l : List (Tp T)) (st : St) (e : Bool) :
    ((updateAll o n t l).1.find? (fun p => decide (st = p.state) && decide (e = p.isEnd))) =
      (l.find? (fun p => decide (st = p.state) && decide (e = p.isEnd))).map
        (fun p => if (p.state = o ∧ p.isEnd = true) ∨ (p.state = n ∧ p.isEnd = false) then p.set t else p) := by
  induction l with
  | nil => rfl
  | cons p ps ih =>
    simp only [updateAll, List.find?_cons]
    split
    · rename_i h
      simp only [List.find?_cons, show (p.set t).state = p.state from rfl, show (p.set t).isEnd = p.isEnd from rfl]
      split
      · simp [h]
      · exact ih
    · rename_i h
      simp only [List.find?_cons]
      split
      · simp [h]
      · exact ih

theorem find_keys (l : List (Tp T)) (st : St) (e : Bool) :
    (∃ p, l.find? (fun p => decide (st = p.state) && decide (e = p.isEnd)) = some p) ↔ (st, e) ∈ keys l := by
  rw [← Option.isSome_iff_exists, List.find?_isSome]
  simp only [keys, List.mem_map, Prod.mk.injEq, Bool.and_eq_true, decide_eq_true_eq]
  constructor
  · rintro ⟨p, hp, rfl, rfl⟩; exact ⟨p, hp, rfl, rfl⟩
  · rintro ⟨p, hp, rfl, rfl⟩; exact ⟨p, hp, rfl, rfl⟩

theorem find_key {l : List (Tp T)} {st : St} {e : Bool} {p : Tp T}
    (h : l.find? (fun p => decide (st = p.state) && decide (e = p.isEnd)) = some p) : p.state = st ∧ p.isEnd = e := by
  have := List.find?_some h
  simp only [Bool.and_eq_true, decide_eq_true_eq] at this
  exact ⟨this.1.symm, this.2.symm⟩

theorem setState_state (n : Node T) (s : St) (t : T) : (setState n s t).state = s := by
  unfold setState
  split
  · rename_i h; exact h.symm
  · rfl

/-- One call of `setState`, for a timepoint that exists. -/
theorem value_setState (n : Node T) (s : St) (t : T) (st : St) (e : Bool) (hk : (st, e) ∈ keys n.tps) :
    (setState n s t).value st e =
      if s = n.state then n.value st e
      else if (if e then st = n.state else st = s) then some t else if s = .inactive then none else n.value st e := by
  unfold setState
  split
  · rfl
  · have hne : n.tps.isEmpty = false := by
      cases h : n.tps with
      | nil => rw [h] at hk; simp [keys] at hk
      | cons => rfl
    obtain ⟨p, hp⟩ := (find_keys _ _ _).mpr hk
    obtain ⟨rfl, rfl⟩ := find_key hp
    simp only [logTransition, hne, Node.value, value_updateAll, hp, Bool.false_eq_true, if_false]
    by_cases hs : s = .inactive
    · rw [if_pos hs, value_resetAll, hp]
      simp only [Option.map_some, Tp.reset, Tp.get, Tp.set, if_pos hs]
      cases p.isEnd <;> simp <;> split <;> simp_all
    · rw [if_neg hs, hp]
      simp only [Option.map_some, Tp.get, Tp.set, if_neg hs]
      cases p.isEnd <;> simp <;> split <;> simp_all

theorem keys_setState (n : Node T) (s : St) (t : T) : keys (setState n s t).tps = keys n.tps := by
  unfold setState
  split
  · rfl
  · simp only [logTransition]
    split
    · rfl
    · simp only [keys_updateAll]
      split
      · exact keys_resetAll _
      · rfl

theorem run_snoc (n : Node T) (cs : List (St × T)) (c : St × T) : run n (cs ++ [c]) = setState (run n cs) c.1 c.2 := by
  induction cs generalizing n with
  | nil => rfl
  | cons d cs ih => exact ih _

theorem keys_run (n : Node T) (cs : List (St × T)) : keys (run n cs).tps = keys n.tps := by
  induction cs generalizing n with
  | nil => rfl
  | cons d cs ih => rw [run, ih, keys_setState]

theorem transitions_snoc (n : Node T) (cs : List (St × T)) (c : St × T) : transitions n.state (cs ++ [c]) =
    transitions n.state cs ++ if c.1 = (run n cs).state then [] else [⟨(run n cs).state, c.1, c.2⟩] := by
  induction cs generalizing n with
  | nil => obtain ⟨s, t⟩ := c; simp only [List.nil_append, transitions, run]; by_cases h : s = n.state <;> simp [h]
  | cons d cs ih =>
    obtain ⟨s, t⟩ := d
    have := ih (setState n s t)
    rw [setState_state] at this
    simp only [List.cons_append, transitions, run]
    split
    · rename_i h; subst h; exact this
    · rw [this]; rfl

theorem last_snoc (h : List (Tr T)) (x : Tr T) (st : St) (e : Bool) (t : T) :
    Last (h ++ [x]) st e t ↔ (x.isAt st e ∧ x.time = t) ∨ (¬ x.isAt st e ∧ x.target ≠ .inactive ∧ Last h st e t) := by
  constructor
  · rintro ⟨h1, y, h2, he, ha, ht, hr⟩
    rcases List.eq_nil_or_concat h2 with rfl | ⟨h2, z, rfl⟩
    · rw [List.append_inj_right' he.symm.symm rfl |> List.cons.inj |>.1]
      exact .inl ⟨ha, ht⟩
    · rw [List.concat_eq_append] at he hr
      have e2 : h ++ [x] = (h1 ++ y :: h2) ++ [z] := by simpa using he
      have hz := List.append_inj_right' e2 rfl
      have hh := List.append_inj_left' e2 rfl
      injection hz with hz _
      subst hz
      exact .inr ⟨(hr _ (by simp)).1, (hr _ (by simp)).2, h1, y, h2, hh, ha, ht, fun w hw => hr w (by simp [hw])⟩
  · rintro (⟨h1, h2⟩ | ⟨h1, h2, a, y, b, rfl, ha, ht, hr⟩)
    · exact ⟨h, x, [], rfl, h1, h2, by simp⟩
    · refine ⟨a, y, b ++ [x], by simp, ha, ht, fun w hw => ?_⟩
      rcases List.mem_append.mp hw with hw | hw
      · exact hr w hw
      · rw [List.mem_singleton.mp hw]; exact ⟨h1, h2⟩

/-- What a reference leaves. -/
theorem keys_reference (zero : T) (ks : List (St × Bool)) : ∀ (n : Node T), (keys n.tps).Nodup →
    (keys (reference zero n ks).tps).Nodup ∧ (∀ k, k ∈ keys (reference zero n ks).tps ↔ k ∈ keys n.tps ∨ k ∈ ks) ∧
    (reference zero n ks).state = n.state ∧ ((∀ p ∈ n.tps, p.known = false) → ∀ p ∈ (reference zero n ks).tps, p.known = false) := by
  induction ks with
  | nil => intro n hn; exact ⟨hn, by simp [reference], rfl, fun h => h⟩
  | cons k ks ih =>
    obtain ⟨st, e⟩ := k
    intro n hn
    have key := find_keys n.tps st e
    rw [reference, ensureTimepoint]
    dsimp only
    split
    · rename_i p hp
      have hk := key.mp ⟨p, hp⟩
      obtain ⟨h1, h2, h3, h4⟩ := ih n hn
      refine ⟨h1, fun k => ?_, h3, h4⟩
      rw [h2]
      simp only [List.mem_cons]
      constructor
      · rintro (h | h)
        · exact .inl h
        · exact .inr (.inr h)
      · rintro (h | rfl | h)
        · exact .inl h
        · exact .inl hk
        · exact .inr h
    · rename_i hp
      have hk : (st, e) ∉ keys n.tps := fun h => by
        obtain ⟨p, hp'⟩ := key.mpr h
        rw [hp] at hp'; cases hp'
      obtain ⟨h1, h2, h3, h4⟩ := ih { n with tps := mkTp zero st e :: n.tps } (by
        simp only [keys, List.map_cons, List.nodup_cons]
        exact ⟨hk, hn⟩)
      refine ⟨h1, fun k => ?_, h3, fun hu => h4 ?_⟩
      · rw [h2]
        simp only [keys, List.map_cons, List.mem_cons, mkTp]
        tauto
      · intro p hp
        rcases List.mem_cons.mp hp with rfl | hp
        · rfl
        · exact hu p hp

/-- **C75.**  For every set of references to timepoints in a plan and every history of the node: a timepoint that is referred to has the value `t` exactly if `t` is the time of the last
beginning (or end) of that state since the node was last reset; in particular it is unknown exactly if there is none. -/
theorem c75_value (zero : T) (ks : List (St × Bool)) (cs : List (St × T)) (st : St) (e : Bool) (hk : (st, e) ∈ ks) (t : T) :
    (run (reference zero (newNode zero) ks) cs).value st e = some t ↔ Last (transitions .inactive cs) st e t := by
  obtain ⟨-, h2, h3, h4⟩ := keys_reference zero ks (newNode zero) (by simp [newNode, keys])
  have hk' : (st, e) ∈ keys (reference zero (newNode zero) ks).tps := (h2 _).mpr (.inr hk)
  have h4 := h4 (by simp [newNode])
  generalize reference zero (newNode zero) ks = n at *
  have hs : n.state = .inactive := h3
  rw [← hs]
  induction cs using List.reverseRecOn generalizing t with
  | nil =>
    simp only [run, transitions, Node.value]
    constructor
    · intro h
      split at h
      · rename_i p hp
        rw [Tp.get, if_neg (by simp [h4 p (List.mem_of_find?_eq_some hp)])] at h; cases h
      · cases h
    · rintro ⟨h1, x, h2, h, -⟩; simp at h
  | append_singleton cs c ih =>
    obtain ⟨s, t'⟩ := c
    rw [run_snoc, value_setState _ _ _ _ _ (by rw [keys_run]; exact hk'), transitions_snoc]
    dsimp only
    by_cases h1 : s = (run n cs).state
    · rw [if_pos h1, if_pos h1, List.append_nil]; exact ih t
    · rw [if_neg h1, if_neg h1, last_snoc, show Last (transitions n.state cs) st e t ↔ _ from (ih t).symm]
      have ha : (Tr.isAt ⟨(run n cs).state, s, t'⟩ st e : Prop) ↔ (if e then st = (run n cs).state else st = s) := by
        cases e
        · exact eq_comm
        · exact eq_comm
      rw [ha]
      by_cases h5 : (if e then st = (run n cs).state else st = s)
      · rw [if_pos h5]; simp [h5]
      · rw [if_neg h5]
        by_cases h6 : s = .inactive
        · rw [if_pos h6]
          constructor
          · intro h; cases h
          · rintro (⟨h, -⟩ | ⟨-, h, -⟩)
            · exact absurd h h5
            · exact absurd h6 h
        · rw [if_neg h6]; simp [h5, h6]

/-- **C75, one variable per timepoint.**  However often a plan refers to timepoints of a node, there is exactly one variable for each one it refers to, and for no other, at all times. -/
theorem c75_shared (zero : T) (ks : List (St × Bool)) (cs : List (St × T)) :
    (((run (reference zero (newNode zero) ks) cs).tps.map fun p => (p.state, p.isEnd)).Nodup) ∧
    ∀ st e, (∃ p ∈ (run (reference zero (newNode zero) ks) cs).tps, p.state = st ∧ p.isEnd = e) ↔ (st, e) ∈ ks := by
  obtain ⟨h1, h2, -⟩ := keys_reference zero ks (newNode zero) (by simp [newNode, keys])
  have hk := keys_run (reference zero (newNode zero) ks) cs
  refine ⟨by have := h1; rw [← hk] at this; exact this, fun st e => ?_⟩
  have := h2 (st, e)
  rw [← hk] at this
  simpa [keys, newNode] using this

theorem mem_updateAll (o n : St) (t : T) (l : List (Tp T)) (k : St × Bool) :
    k ∈ (updateAll o n t l).2 ↔ k ∈ keys l ∧ ((k.1 = o ∧ k.2 = true) ∨ (k.1 = n ∧ k.2 = false)) := by
  induction l with
  | nil => simp [updateAll, keys]
  | cons p ps ih =>
    simp only [updateAll]
    split
    · rename_i h
      simp only [List.mem_cons, ih, keys, List.map_cons]
      constructor
      · rintro (rfl | h')
        · exact ⟨.inl rfl, h⟩
        · exact ⟨.inr h'.1, h'.2⟩
      · rintro ⟨rfl | h1, h2⟩
        · exact .inl rfl
        · exact .inr ⟨h1, h2⟩
    · rename_i h
      simp only [ih, keys, List.map_cons, List.mem_cons]
      constructor
      · rintro ⟨h1, h2⟩; exact ⟨.inr h1, h2⟩
      · rintro ⟨rfl | h1, h2⟩
        · exact absurd h2 h
        · exact ⟨h1, h2⟩

theorem mem_resetAll (l : List (Tp T)) : (resetAll l).2 = keys l := by
  induction l with
  | nil => rfl
  | cons p ps ih => simp only [resetAll, ih, keys, List.map_cons]

/-- **C75, subscribers are told.**  Whenever a call changes the value of a timepoint, the timepoint notifies its subscribers during that call. -/
theorem c75_published (n : Node T) (s : St) (t : T) (st : St) (e : Bool) (h : (setState n s t).value st e ≠ n.value st e) :
    ∃ l, (setState n s t).published = n.published ++ l ∧ (st, e) ∈ l := by
  have hk : (st, e) ∈ keys n.tps := by
    by_contra hk
    apply h
    have v : ∀ m : Node T, (st, e) ∉ keys m.tps → m.value st e = none := by
      intro m hm
      unfold Node.value
      split
      · rename_i p hp; exact absurd ((find_keys _ _ _).mp ⟨p, hp⟩) hm
      · rfl
    rw [v _ hk, v _ (by rw [keys_setState]; exact hk)]
  rw [value_setState n s t st e hk] at h
  by_cases h1 : s = n.state
  · rw [if_pos h1] at h; exact absurd rfl h
  · rw [if_neg h1] at h
    have hne : n.tps.isEmpty = false := by
      cases h : n.tps with
      | nil => rw [h] at hk; simp [keys] at hk
      | cons => rfl
    simp only [setState, h1, if_false, logTransition, hne, Bool.false_eq_true]
    refine ⟨_, List.append_assoc _ _ _, ?_⟩
    rw [List.mem_append, mem_updateAll]
    by_cases h2 : (if e then st = n.state else st = s)
    · right
      constructor
      · split
        · rw [keys_resetAll]; exact hk
        · exact hk
      · cases e
        · exact .inr ⟨by simpa using h2, rfl⟩
        · exact .inl ⟨by simpa using h2, rfl⟩
    · rw [if_neg h2] at h
      by_cases h3 : s = .inactive
      · left; rw [if_pos h3, mem_resetAll]; exact hk
      · rw [if_neg h3] at h; exact absurd rfl h

theorem source_chain (n : Node T) (cs : List (St × T)) :
    ∀ h1 x h2, transitions n.state cs = h1 ++ x :: h2 → ∀ z, h2.getLast? = some z → z.target = (run n cs).state := by
  induction cs using List.reverseRecOn with
  | nil => intro h1 x h2 h; simp [transitions] at h
  | append_singleton cs c ih =>
    obtain ⟨s, t⟩ := c
    intro h1 x h2 h z hz
    rw [transitions_snoc] at h
    rw [run_snoc, setState_state]
    dsimp only at h ⊢
    split at h
    · rename_i hs
      rw [List.append_nil] at h
      rw [hs]; exact ih h1 x h2 h z hz
    · rcases List.eq_nil_or_concat h2 with rfl | ⟨h2, w, rfl⟩
      · simp at hz
      · rw [List.concat_eq_append] at h hz
        have e2 : transitions n.state cs ++ [⟨(run n cs).state, s, t⟩] = (h1 ++ x :: h2) ++ [w] := by simpa using h
        have := List.append_inj_right' e2 rfl
        injection this with this _
        simp at hz
        rw [← hz, ← this]

/-- **C75, order.**  With times that never go back: if both timepoints of a state are known, its beginning is not after its end when the node has left the state, and not before it while the
node is in it (again). -/
theorem c75_order [LinearOrder T] (zero : T) (ks : List (St × Bool)) (cs : List (St × T)) (st : St) (h0 : (st, false) ∈ ks) (h1 : (st, true) ∈ ks)
    (hm : (cs.map Prod.snd).Pairwise (· ≤ ·)) (a b : T)
    (ha : (run (reference zero (newNode zero) ks) cs).value st false = some a) (hb : (run (reference zero (newNode zero) ks) cs).value st true = some b) :
    if (run (reference zero (newNode zero) ks) cs).state = st then b ≤ a else a ≤ b := by
  rw [c75_value zero ks cs st false h0] at ha
  rw [c75_value zero ks cs st true h1] at hb
  obtain ⟨-, -, hs, -⟩ := keys_reference zero ks (newNode zero) (by simp [newNode, keys])
  generalize reference zero (newNode zero) ks = n at *
  have hs : n.state = .inactive := hs
  rw [← hs] at ha hb
  clear hs h0 h1
  have htimes : ∀ (cs : List (St × T)) (s : St) (x : Tr T), x ∈ transitions s cs → x.time ∈ cs.map Prod.snd := by
    intro cs
    induction cs with
    | nil => intro s x hx; simp [transitions] at hx
    | cons c cs ih =>
      obtain ⟨s', t⟩ := c
      intro s x hx
      rw [transitions] at hx
      split at hx
      · exact List.mem_cons_of_mem _ (ih _ _ hx)
      · rcases List.mem_cons.mp hx with rfl | hx
        · exact List.mem_cons_self
        · exact List.mem_cons_of_mem _ (ih _ _ hx)
  induction cs using List.reverseRecOn generalizing a b with
  | nil => obtain ⟨h1, x, h2, h, -⟩ := ha; simp [transitions] at h
  | append_singleton cs c ih =>
    obtain ⟨s, t⟩ := c
    rw [transitions_snoc] at ha hb
    rw [List.map_append, List.pairwise_append] at hm
    rw [run_snoc, setState_state]
    dsimp only at ha hb ⊢
    by_cases h1 : s = (run n cs).state
    · rw [if_pos h1, List.append_nil] at ha hb
      rw [h1]; exact ih hm.1 a b hb ha
    · rw [if_neg h1, last_snoc] at ha hb
      have hle : ∀ st e x, Last (transitions n.state cs) st e x → x ≤ t := by
        rintro st e x ⟨u, y, v, hu, -, rfl, -⟩
        exact hm.2.2 _ (htimes cs n.state y (by rw [hu]; simp)) _ (by simp)
      simp only [Tr.isAt, Bool.false_eq_true, if_false, if_true] at ha hb
      rcases ha with ⟨rfl, rfl⟩ | ⟨ha1, -, ha⟩
      · rw [if_pos rfl]
        rcases hb with ⟨hb, -⟩ | ⟨-, -, hb⟩
        · exact absurd hb.symm h1
        · exact hle _ _ _ hb
      · rw [if_neg ha1]
        rcases hb with ⟨-, rfl⟩ | ⟨hb1, -, hb⟩
        · exact hle _ _ _ ha
        · have := ih hm.1 a b hb ha
          rwa [if_neg hb1] at this

/-- **C75, the current state.**  `getStateStartTime` gives the time of the last transition for the current state, and the timepoint's value for others that are referred to. -/
theorem c75_start_time (zero dflt : T) (ks : List (St × Bool)) (cs : List (St × T)) (h : List (Tr T)) (x : Tr T)
    (hx : transitions .inactive cs = h ++ [x]) :
    getStateStartTime dflt (run (reference zero (newNode zero) ks) cs) x.target = x.time ∧
    ∀ st, st ≠ x.target → (st, false) ∈ ks → ∀ t, Last (h ++ [x]) st false t →
      getStateStartTime dflt (run (reference zero (newNode zero) ks) cs) st = t := by
  have hv := c75_value zero ks cs
  obtain ⟨-, -, hs, -⟩ := keys_reference zero ks (newNode zero) (by simp [newNode, keys])
  generalize reference zero (newNode zero) ks = n at *
  have hs : n.state = .inactive := hs
  have main : (run n cs).state = x.target ∧ (run n cs).startTime = x.time := by
    rw [← hs] at hx
    clear hv hs
    induction cs using List.reverseRecOn generalizing h x with
    | nil => simp [transitions] at hx
    | append_singleton cs c ih =>
      obtain ⟨s, t⟩ := c
      rw [transitions_snoc] at hx
      rw [run_snoc]
      dsimp only at hx ⊢
      by_cases h1 : s = (run n cs).state
      · rw [if_pos h1, List.append_nil] at hx
        rw [setState, if_pos h1]; exact ih h x hx
      · rw [if_neg h1] at hx
        have := List.append_inj_right' hx rfl
        injection this with this _
        rw [← this]
        refine ⟨setState_state _ _ _, ?_⟩
        rw [setState, if_neg h1]
        simp only [logTransition]
        split <;> rfl
  refine ⟨by rw [getStateStartTime, if_pos main.1.symm, main.2], fun st hst hk t ht => ?_⟩
  rw [getStateStartTime, if_neg (by rw [main.1]; exact hst)]
  rw [← hx, ← hv st false hk t] at ht
  revert ht
  unfold Node.value
  induction (run n cs).tps with
  | nil => simp
  | cons p ps ih =>
    simp only [List.find?_cons, findStart]
    by_cases hp : p.state = st ∧ p.isEnd = false
    · rw [if_pos hp]; simp only [hp.1, hp.2, decide_true, Bool.and_self]
      intro h; rw [h]; rfl
    · rw [if_neg hp]
      have : (decide (st = p.state) && decide (false = p.isEnd)) = false := by
        rw [Bool.and_eq_false_iff, decide_eq_false_iff_not, decide_eq_false_iff_not]
        by_contra hc
        rw [not_or, not_not, not_not] at hc
        exact hp ⟨hc.1.symm, hc.2.symm⟩
      rw [this]; exact ih

/-- A node runs twice and is reset: after the repeat the beginning is that of the second run, the end that of the first; after the reset only the end of the state it left is known. -/
theorem c75_example :
    (run (reference 0 (newNode 0) [(.executing, false), (.executing, true), (.executing, false), (.finished, true)])
      [(.waiting, 1), (.executing, 2), (.iterationEnded, 5), (.waiting, 5), (.executing, 7)]).tps.map (fun p => (p.state, p.isEnd, p.get)) =
        [(.finished, true, none), (.executing, true, some 5), (.executing, false, some (7 : Nat))] ∧
    (run (reference 0 (newNode 0) [(.executing, false), (.executing, true), (.executing, false), (.finished, true)])
      [(.waiting, 1), (.executing, 2), (.iterationEnded, 5), (.finished, 6), (.inactive, 8)]).tps.map (fun p => (p.state, p.isEnd, p.get)) =
        [(.finished, true, some 8), (.executing, true, none), (.executing, false, none)] := by
  decide

end Verif.Timepoint
