import Verif.Lookup.Lemmas

/-! Registration, activation, changes of the state name and of the tolerance; every event keeps the invariant. -/
namespace Verif.Lookup

theorem setObj_self (s : Sys) (i : Nat) : s.setObj i (s.obj i) = s := by
  have : (fun j => if j = i then s.obj i else s.obj j) = s.obj := by
    funext j; split
    · next h => rw [h]
    · rfl
  unfold Sys.setObj; rw [this]

theorem setObj_setObj (s : Sys) (i : Nat) (o o' : Obj) : (s.setObj i o).setObj i o' = s.setObj i o' := by
  have : (fun j => if j = i then o' else (s.setObj i o).obj j) = fun j => if j = i then o' else s.obj j := by
    funext j; split
    · rfl
    · next h => simp [h]
  unfold Sys.setObj at *; simp only at *; rw [this]

/-- The invariant, except for lookup `i`. -/
structure Almost (C : Cfg) (s : Sys) (i : Nat) : Prop where
  crash : s.crash = false
  ok : ∀ j, j ≠ i → Ok (s.obj j)
  reg : Reg s
  val : ∀ j st, j ≠ i → (s.obj j).thr ≠ none → (s.obj j).entry = some st → (s.entry st).value ≠ none
  fits : ∀ j, j ≠ i → Fits C s j

theorem Inv.almost {C : Cfg} {s : Sys} (I : Inv C s) (i : Nat) : Almost C s i :=
  ⟨I.crash, fun j _ => I.ok j, I.reg, fun j st _ => I.val j st, fun j _ => I.fits j⟩

theorem Almost.inv {C : Cfg} {s : Sys} {i : Nat} (A : Almost C s i) (O : Ok (s.obj i)) (ht : (s.obj i).thr = none) :
    Inv C s := by
  refine ⟨⟨A.crash, fun j => ?_, A.reg, fun j st h => ?_⟩, fun j => ?_⟩
  · by_cases hj : j = i
    · rw [hj]; exact O
    · exact A.ok j hj
  · by_cases hj : j = i
    · rw [hj] at h; exact absurd ht h
    · exact A.val j st hj h
  · by_cases hj : j = i
    · rw [hj]; exact fits_of_none ht
    · exact A.fits j hj

theorem Almost.setObj {C : Cfg} {s : Sys} {i : Nat} (A : Almost C s i) (o : Obj)
    (h : (o.registered = false ∧ (s.obj i).registered = false) ∨
      (o.registered = (s.obj i).registered ∧ o.entry = (s.obj i).entry)) : Almost C (s.setObj i o) i := by
  refine ⟨A.crash, fun j hj => ?_, ⟨A.reg.nodup, fun st j => ?_⟩, fun j st hj => ?_, fun j hj => ?_⟩
  · rw [setObj_obj, if_neg hj]; exact A.ok j hj
  · rw [setObj_obj, setObj_entry, A.reg.mem st j]
    by_cases hj : j = i
    · rw [if_pos hj, hj]
      rcases h with ⟨h1, h2⟩ | ⟨h1, h2⟩
      · rw [h1, h2]; simp
      · rw [h1, h2]
    · rw [if_neg hj]
  · rw [setObj_obj, if_neg hj, setObj_entry]; exact A.val j st hj
  · exact (A.fits j hj).of (by rw [setObj_obj, if_neg hj]) (fun _ _ => rfl)

/-- A step that touches only lookup `i`, the registrations and the thresholds. -/
structure Calm (s s' : Sys) (i : Nat) : Prop where
  value : ∀ st, (s'.entry st).value = (s.entry st).value
  stamp : ∀ st, (s'.entry st).stamp = (s.entry st).stamp
  cycle : s'.cycle = s.cycle
  queries : s'.queries = s.queries
  published : s'.published = s.published
  other : ∀ j, j ≠ i → s'.obj j = s.obj j

theorem Calm.refl (s : Sys) (i : Nat) : Calm s s i := ⟨fun _ => rfl, fun _ => rfl, rfl, rfl, rfl, fun _ _ => rfl⟩
theorem Calm.trans {a b c : Sys} {i : Nat} (h : Calm a b i) (k : Calm b c i) : Calm a c i :=
  ⟨fun t => (k.value t).trans (h.value t), fun t => (k.stamp t).trans (h.stamp t), k.cycle.trans h.cycle,
   k.queries.trans h.queries, k.published.trans h.published, fun j hj => (k.other j hj).trans (h.other j hj)⟩
theorem calm_setObj (s : Sys) (i : Nat) (o : Obj) : Calm s (s.setObj i o) i :=
  ⟨fun _ => rfl, fun _ => rfl, rfl, rfl, rfl, fun j hj => by rw [setObj_obj, if_neg hj]⟩

theorem value_eq {s s' : Sys} {j : Nat} (ho : s'.obj j = s.obj j) (hv : ∀ st, (s'.entry st).value = (s.entry st).value) :
    s'.value j = s.value j := by
  unfold Sys.value; simp only [ho, hv]

theorem Calm.val {s s' : Sys} {i j : Nat} (h : Calm s s' i) (hj : j ≠ i) : s'.value j = s.value j :=
  value_eq (h.other j hj) h.value

theorem Almost.eqv {C : Cfg} {s s' : Sys} {i : Nat} (A : Almost C s i) (E : Eqv s s') : Almost C s' i := by
  refine ⟨E.crash.trans A.crash, fun j => by rw [E.obj]; exact A.ok j, ⟨fun st => ?_, fun st i => ?_⟩, fun i st => ?_, fun j hj => ?_⟩
  · rw [E.keep.lookups]; exact A.reg.nodup st
  · rw [E.keep.lookups, E.obj]; exact A.reg.mem st i
  · rw [E.keep.value, E.obj]; exact A.val i st
  · exact (A.fits j hj).of (by rw [E.obj]) (fun st _ => E.keep.value st)

theorem eqv_updateThresholds (s : Sys) (st : Nat) : Eqv s (updateThresholds s st) :=
  ⟨updateThresholds_obj s st, keep_updateThresholds s st, updateThresholds_crash s st⟩

theorem unregister_eq (s : Sys) (i st : Nat) (hr : (s.obj i).registered = true) (hst : (s.obj i).entry = some st)
    (hm : i ∈ (s.entry st).lookups) : ∃ th,
    unregister s i = (s.setObj i { s.obj i with registered := false }).setEntry st
      { s.entry st with lookups := (s.entry st).lookups.erase i, thr := th } ∨
    unregister s i = updateThresholds ((s.setObj i { s.obj i with registered := false }).setEntry st
      { s.entry st with lookups := (s.entry st).lookups.erase i, thr := th }) st := by
  unfold unregister
  simp only [hr, hst, setObj_entry, List.ne_nil_of_mem hm, Bool.not_true, Bool.false_eq_true, if_false]
  split
  · next h => exact ⟨false, .inl (by rw [h])⟩
  · split
    · next h => exact ⟨_, .inr rfl⟩
    · next h => exact ⟨_, .inl rfl⟩

theorem unregister_spec {C : Cfg} {s : Sys} {i : Nat} (A : Almost C s i)
    (he : (s.obj i).registered = true → (s.obj i).entry ≠ none) :
    Calm s (unregister s i) i ∧ Almost C (unregister s i) i ∧
      (unregister s i).obj i = { s.obj i with registered := false } := by
  by_cases hr : (s.obj i).registered = true
  · obtain ⟨st, hst⟩ := Option.ne_none_iff_exists'.1 (he hr)
    have hm : i ∈ (s.entry st).lookups := (A.reg.mem st i).2 ⟨hr, hst⟩
    -- the entry without the lookup
    have key : ∀ th, Calm s ((s.setObj i { s.obj i with registered := false }).setEntry st
          { s.entry st with lookups := (s.entry st).lookups.erase i, thr := th }) i ∧
        Almost C ((s.setObj i { s.obj i with registered := false }).setEntry st
          { s.entry st with lookups := (s.entry st).lookups.erase i, thr := th }) i := by
      intro th
      refine ⟨⟨fun t => ?_, fun t => ?_, rfl, rfl, rfl, fun j hj => by simp [hj]⟩,
        A.crash, fun j hj => ?_, ⟨fun t => ?_, fun t j => ?_⟩, fun j t hj h1 h2 => ?_, fun j hj => ?_⟩
      · simp only [setEntry_entry]; split
        · next h => rw [h]
        · rfl
      · simp only [setEntry_entry]; split
        · next h => rw [h]
        · rfl
      · simp only [setEntry_obj, setObj_obj, if_neg hj]; exact A.ok j hj
      · simp only [setEntry_entry]; split
        · exact (A.reg.nodup st).erase i
        · exact A.reg.nodup t
      · simp only [setEntry_entry, setEntry_obj, setObj_obj, setObj_entry]
        by_cases hj : j = i
        · subst hj
          simp only [if_true]
          split
          · next h => simp [(A.reg.nodup st).mem_erase_iff]
          · next h =>
            rw [A.reg.mem t j, hst]
            constructor
            · rintro ⟨_, h'⟩; cases h'; exact absurd rfl h
            · rintro ⟨h', _⟩; simp at h'
        · simp only [if_neg hj]
          split
          · next h => subst h; simp [(A.reg.nodup t).mem_erase_iff, hj, A.reg.mem t j]
          · exact A.reg.mem t j
      · simp only [setEntry_obj, setObj_obj, if_neg hj] at h1 h2
        simp only [setEntry_entry, setObj_entry]
        split
        · next h => subst h; exact A.val j t hj h1 h2
        · exact A.val j t hj h1 h2
      · refine (A.fits j hj).of (by simp [hj]) (fun t _ => ?_)
        simp only [setEntry_entry]; split
        · next h => rw [h]
        · rfl
    obtain ⟨th, h | h⟩ := unregister_eq s i st hr hst hm
    · rw [h]; exact ⟨(key th).1, (key th).2, by simp⟩
    · rw [h]
      have E := eqv_updateThresholds ((s.setObj i { s.obj i with registered := false }).setEntry st
          { s.entry st with lookups := (s.entry st).lookups.erase i, thr := th }) st
      refine ⟨(key th).1.trans ⟨E.keep.value, E.keep.stamp, E.keep.cycle, E.keep.queries, updateThresholds_published _ _,
        fun j _ => by rw [E.obj]⟩, (key th).2.eqv E, ?_⟩
      rw [E.obj]; simp
  · have hr : (s.obj i).registered = false := by simpa using hr
    have e : unregister s i = s := by unfold unregister; simp [hr]
    rw [e]
    refine ⟨Calm.refl s i, A, ?_⟩
    rw [← hr]

theorem invalidate_spec {C : Cfg} {s : Sys} {i : Nat} (A : Almost C s i)
    (he : (s.obj i).registered = true → (s.obj i).entry ≠ none)
    (hp : (s.obj i).thr = none → (s.obj i).cached = none) (hpl : (s.obj i).onChange = false → (s.obj i).thr = none) :
    Calm s (invalidateOldState s i) i ∧ Almost C (invalidateOldState s i) i ∧
      (invalidateOldState s i).obj i =
        { s.obj i with registered := false, entry := none, thr := none, cached := none } := by
  obtain ⟨h1, h2, h3⟩ := unregister_spec A he
  unfold invalidateOldState
  dsimp only
  rw [h3]
  refine ⟨h1.trans (calm_setObj _ _ _), ?_, ?_⟩
  · refine h2.setObj _ (.inl ⟨?_, by rw [h3]⟩)
    split <;> rfl
  · rw [setObj_obj, if_pos rfl]
    cases ht : (s.obj i).thr with
    | none =>
      simp only [Option.isSome_none, Bool.and_false, Bool.false_eq_true, if_false]
      rw [hp ht]
    | some th =>
      cases hc : (s.obj i).onChange with
      | true => simp
      | false => rw [hpl hc] at ht; simp at ht

/-- What an event does to the values, the time stamps and the queries: `q` is the state asked for, if any. -/
def Eff (s s' : Sys) : Option Nat → Given → Prop
  | none, _ => (∀ t, (s'.entry t).value = (s.entry t).value) ∧ (∀ t, (s'.entry t).stamp = (s.entry t).stamp) ∧
      s'.cycle = s.cycle ∧ s'.queries = s.queries
  | some st, g => ((s.entry st).value = none ∨ (s.entry st).stamp < s.cycle) ∧
      (∀ t, (s'.entry t).value = if t = st then g.apply (s.entry st).value else (s.entry t).value) ∧
      (∀ t, (s'.entry t).stamp = if t = st ∧ g.stamps (s.entry st).value = true then s.cycle else (s.entry t).stamp) ∧
      s'.cycle = s.cycle ∧ s'.queries = (st, s.cycle) :: s.queries

theorem Eff.calm_left {s s1 s' : Sys} {i : Nat} (h : Calm s s1 i) {q : Option Nat} {g : Given} (e : Eff s1 s' q g) :
    Eff s s' q g := by
  cases q with
  | none =>
    obtain ⟨h1, h2, h3, h4⟩ := e
    exact ⟨fun t => (h1 t).trans (h.value t), fun t => (h2 t).trans (h.stamp t), h3.trans h.cycle, h4.trans h.queries⟩
  | some st =>
    obtain ⟨h1, h2, h3, h4, h5⟩ := e
    refine ⟨by rw [← h.value, ← h.stamp, ← h.cycle]; exact h1, fun t => ?_, fun t => ?_, h4.trans h.cycle, ?_⟩
    · rw [h2 t, h.value, h.value]
    · rw [h3 t, h.value, h.stamp, h.cycle]
    · rw [h5, h.cycle, h.queries]

theorem Eff.keep_right {s s1 s' : Sys} {q : Option Nat} {g : Given} (e : Eff s s1 q g) (h : Keep s1 s') : Eff s s' q g := by
  cases q with
  | none =>
    obtain ⟨h1, h2, h3, h4⟩ := e
    exact ⟨fun t => (h.value t).trans (h1 t), fun t => (h.stamp t).trans (h2 t), h.cycle.trans h3, h.queries.trans h4⟩
  | some st =>
    obtain ⟨h1, h2, h3, h4, h5⟩ := e
    exact ⟨h1, fun t => (h.value t).trans (h2 t), fun t => (h.stamp t).trans (h3 t), h.cycle.trans h4, h.queries.trans h5⟩

/-- What registering a lookup does. -/
structure Rg (C : Cfg) (s s' : Sys) (i st : Nat) (g : Given) : Prop where
  inv : Inv C s'
  same : ∃ th c, s'.obj i = { s.obj i with registered := true, thr := th, cached := c }
  others : ∀ j, j ≠ i → ∃ th c, s'.obj j = { s.obj j with thr := th, cached := c }
  eff : ∃ q, Eff s s' q g ∧ (q = none ∨ q = some st) ∧
    (q = none → (s.entry st).value ≠ none ∧ ¬ (s.entry st).stamp < s.cycle)
  told : ∃ new, s'.published = new ++ s.published ∧
    (∀ j, j ≠ i → s'.value j ≠ s.value j → j ∈ new) ∧ ((s'.obj i).thr ≠ none → i ∈ new)

theorem ensureRegistered_rg (C : Cfg) {s : Sys} {i st : Nat} (g : Given) (A : Almost C s i)
    (hr : (s.obj i).registered = false) (ht : (s.obj i).thr = none) (he : (s.obj i).entry = some st)
    (O : Ok { s.obj i with registered := true }) : Rg C s (ensureRegistered C s i st g) i st g := by
  have hn : ∀ t, i ∉ (s.entry t).lookups := by
    intro t h; have := ((A.reg.mem t i).1 h).1; rw [hr] at this; simp at this
  -- the system once the lookup is in the list
  obtain ⟨s1, hs1⟩ : ∃ s1, s1 = (s.setObj i { s.obj i with registered := true }).setEntry st
    { s.entry st with lookups := (s.entry st).lookups ++ [i] } := ⟨_, rfl⟩
  have A1 : Almost C s1 i := by
    rw [hs1]
    refine ⟨A.crash, fun j hj => by simp only [setEntry_obj, setObj_obj, if_neg hj]; exact A.ok j hj,
      ⟨fun t => ?_, fun t j => ?_⟩, fun j t hj h1 h2 => ?_, fun j hj => ?_⟩
    · simp only [setEntry_entry]; split
      · refine List.nodup_append.2 ⟨A.reg.nodup st, by simp, ?_⟩
        intro a ha b hb
        simp at hb; subst hb
        exact fun h => hn st (h ▸ ha)
      · exact A.reg.nodup t
    · simp only [setEntry_entry, setEntry_obj, setObj_obj, setObj_entry]
      by_cases hj : j = i
      · subst hj
        simp only [if_true]
        split
        · next h => subst h; simp [he]
        · next h =>
          rw [he]
          simp [hn t, Ne.symm h]
      · simp only [if_neg hj]
        split
        · next h => subst h; simp [hj, A.reg.mem t j]
        · exact A.reg.mem t j
    · simp only [setEntry_obj, setObj_obj, if_neg hj] at h1 h2
      simp only [setEntry_entry, setObj_entry]
      split
      · next h => subst h; exact A.val j t hj h1 h2
      · exact A.val j t hj h1 h2
    · refine (A.fits j hj).of (by simp [hj]) (fun t _ => ?_)
      simp only [setEntry_entry]; split
      · next h => rw [h]
      · rfl
  have hi1 : s1.obj i = { s.obj i with registered := true } := by rw [hs1]; simp
  have I1 : Inv C s1 := A1.inv (by rw [hi1]; exact O) (by rw [hi1]; exact ht)
  have C1 : Calm s s1 i := by
    rw [hs1]
    refine ⟨fun t => ?_, fun t => ?_, rfl, rfl, rfl, fun j hj => by simp [hj]⟩
    · simp only [setEntry_entry]; split
      · next h => rw [h]
      · rfl
    · simp only [setEntry_entry]; split
      · next h => rw [h]
      · rfl
  have e : ensureRegistered C s i st g = if (s.entry st).value = none ∨ (s.entry st).stamp < s.cycle then
      give C { s1 with queries := (st, s1.cycle) :: s1.queries } st g else s1 := by
    unfold ensureRegistered; rw [hs1]; simp only [hr, Bool.false_eq_true, if_false]; rfl
  rw [e]
  split
  · next hq =>
    have I2 : Inv C { s1 with queries := (st, s1.cycle) :: s1.queries } :=
      ⟨⟨I1.crash, I1.ok, ⟨I1.reg.nodup, I1.reg.mem⟩, I1.val⟩, I1.fits⟩
    have G := give_gv C I2 st g
    generalize give C { s1 with queries := (st, s1.cycle) :: s1.queries } st g = s2 at G
    refine ⟨G.inv, ?_, fun j hj => ?_, ⟨some st, ⟨hq, fun t => ?_, fun t => ?_, ?_, ?_⟩, .inr rfl, by simp⟩, ?_⟩
    · obtain ⟨th, c, h⟩ := G.same i
      exact ⟨th, c, by rw [h]; show _ = _; simp only [hi1]⟩
    · obtain ⟨th, c, h⟩ := G.same j
      exact ⟨th, c, by rw [h]; show _ = _; simp only [C1.other j hj]⟩
    · rw [G.value t]; simp only [C1.value]
    · rw [G.stamp t]; simp only [C1.value, C1.stamp, C1.cycle]
    · rw [G.cycle]; exact C1.cycle
    · rw [G.queries]; simp only [C1.queries, C1.cycle]
    · obtain ⟨new, hp, hnew⟩ := G.told
      refine ⟨new, by rw [hp]; simp only [C1.published], fun j hj hne => (hnew j).1 ?_, fun h => (hnew i).2 ?_ h⟩
      · rw [show Sys.value { s1 with queries := (st, s1.cycle) :: s1.queries } j = s.value j from
          value_eq (C1.other j hj) C1.value]
        exact hne
      · show (s1.obj i).thr = none; rw [hi1]; exact ht
  · next hq =>
    refine ⟨I1, ⟨none, (s.obj i).cached, by rw [hi1, ← ht]⟩, fun j hj => ⟨(s.obj j).thr, (s.obj j).cached, C1.other j hj⟩,
      ⟨none, ⟨C1.value, C1.stamp, C1.cycle, C1.queries⟩, .inl rfl, fun _ => ⟨fun h => hq (.inl h), fun h => hq (.inr h)⟩⟩,
      [], C1.published, fun j hj hne => absurd (C1.val hj) hne, ?_⟩
    intro h; rw [hi1] at h; exact absurd ht h

theorem hci_none (C : Cfg) {s : Sys} {i : Nat} (g : Given) (hn : (s.obj i).name = none) :
    handleChangeInternal C s i g =
      (if (s.obj i).stateKnown then invalidateOldState (s.setObj i { s.obj i with stateKnown := false }) i
        else s.setObj i { s.obj i with stateKnown := false }, (s.obj i).stateKnown) := by
  unfold handleChangeInternal
  simp only [hn]

theorem hci_some (C : Cfg) {s : Sys} {i st : Nat} (g : Given) (hn : (s.obj i).name = some st) {b : Bool}
    (hb : ((s.obj i).stateKnown && decide (st ≠ (s.obj i).cachedState)) = b) {s1 : Sys}
    (h1 : (if b then invalidateOldState (s.setObj i { s.obj i with stateKnown := true }) i
        else s.setObj i { s.obj i with stateKnown := true }) = s1) :
    handleChangeInternal C s i g =
      (ensureRegistered C (s1.setObj i { s1.obj i with cachedState := st, entry := some st }) i st g,
        !(s.obj i).stateKnown || b) := by
  rw [← h1, ← hb]
  unfold handleChangeInternal
  simp only [hn]

/-- If the state named is what it was, nothing happens. -/
theorem hci_same (C : Cfg) {s : Sys} {i : Nat} (g : Given) (O : Ok (s.obj i)) (ha : (s.obj i).active = true) :
    handleChangeInternal C s i g = (s, false) := by
  obtain ⟨h1, h2, h3, h4⟩ := O.act ha
  cases hn : (s.obj i).name with
  | none =>
    rw [hn] at h1
    have h1 : (s.obj i).stateKnown = false := h1
    have e1 : { s.obj i with stateKnown := false } = s.obj i := by rw [← h1]
    rw [hci_none C g hn, e1, h1, setObj_self]; rfl
  | some st =>
    rw [hn] at h1 h2 h3
    have h1 : (s.obj i).stateKnown = true := h1
    have h3 : (s.obj i).registered = true := h3
    have e1 : { s.obj i with stateKnown := true } = s.obj i := by rw [← h1]
    have e2 : { s.obj i with cachedState := st, entry := some st } = s.obj i := by
      rw [← h2, ← h4 st hn]
    rw [hci_some C (b := false) (s1 := s) g hn (by rw [h4 st hn]; simp) (by rw [e1, setObj_self]; rfl), e2, setObj_self, h1]
    unfold ensureRegistered
    rw [if_pos h3]; rfl

/-- What a change of the state named does. -/
structure HC (C : Cfg) (s s' : Sys) (i : Nat) (n : Option Nat) (g : Given) : Prop where
  inv : Inv C s'
  active : (s'.obj i).active = true
  name : (s'.obj i).name = n
  onChange : (s'.obj i).onChange = (s.obj i).onChange
  tol : (s'.obj i).tol = (s.obj i).tol
  others : ∀ j, j ≠ i → ∃ th c, s'.obj j = { s.obj j with thr := th, cached := c }
  eff : ∃ q, Eff s s' q g ∧ (q ≠ none → q = n) ∧ (∀ st, n = some st → q = none →
    (s.entry st).value ≠ none ∧ ¬ (s.entry st).stamp < s.cycle)
  told : ∃ new, s'.published = new ++ s.published ∧
    (∀ j, j ≠ i → s'.value j ≠ s.value j → j ∈ new) ∧ ((s'.obj i).thr ≠ none → i ∈ new)

theorem hci_changed (C : Cfg) {s : Sys} {i : Nat} (I : Inv C s) (n : Option Nat) (g : Given)
    (ha : (s.obj i).active = true) (hc : (s.obj i).const = false) (hne : n ≠ (s.obj i).name) :
    ∃ s', handleChangeInternal C (s.setObj i { s.obj i with name := n }) i g = (s', true) ∧ HC C s s' i n g := by
  have O := I.ok i
  obtain ⟨h1, h2, h3, h4⟩ := O.act ha
  have A := I.almost i
  cases n with
  | none =>
    obtain ⟨st', hst'⟩ := Option.ne_none_iff_exists'.1 (Ne.symm hne)
    rw [hst'] at h1 h2 h3
    obtain ⟨s0, hs0⟩ : ∃ s0, s0 = s.setObj i { s.obj i with name := none, stateKnown := false } := ⟨_, rfl⟩
    have A0 : Almost C s0 i := by rw [hs0]; exact A.setObj _ (.inr ⟨rfl, rfl⟩)
    have hi0 : s0.obj i = { s.obj i with name := none, stateKnown := false } := by rw [hs0]; simp
    obtain ⟨k1, k2, k3⟩ := invalidate_spec A0 (by rw [hi0]; simp [h2]) (by rw [hi0]; exact O.pair) (by rw [hi0]; exact O.plain)
    have C0 : Calm s s0 i := by rw [hs0]; exact calm_setObj _ _ _
    refine ⟨invalidateOldState s0 i, ?_, ?_⟩
    · have e : (s.setObj i { s.obj i with name := none }).obj i = { s.obj i with name := none } := by simp
      rw [hci_none C g (by rw [e]), e, setObj_setObj]
      have h1 : (s.obj i).stateKnown = true := h1
      simp only [h1, if_true]
      rw [hs0]
    · have hO : Ok ((invalidateOldState s0 i).obj i) := by
        rw [k3, hi0]
        refine ⟨fun _ => ⟨rfl, rfl, rfl, fun _ h => by simp at h⟩, fun h => ?_, fun h => ?_, fun _ => rfl, fun _ => rfl, fun _ h => by simp at h⟩
        · exact absurd (ha.symm.trans h) (by decide)
        · exact absurd (hc.symm.trans h) (by decide)
      refine ⟨k2.inv hO (by rw [k3]), by rw [k3, hi0]; exact ha, by rw [k3, hi0], by rw [k3, hi0], by rw [k3, hi0],
        fun j hj => ⟨(s.obj j).thr, (s.obj j).cached, (C0.trans k1).other j hj⟩,
        ⟨none, Eff.calm_left (C0.trans k1) (s' := invalidateOldState s0 i) ⟨fun _ => rfl, fun _ => rfl, rfl, rfl⟩, by simp, by simp⟩,
        [], (C0.trans k1).published, fun j hj hv => absurd ((C0.trans k1).val hj) hv, ?_⟩
      rw [k3]; simp
  | some st =>
    -- the system before the registration
    have pre : ∃ s1, Calm s s1 i ∧ Almost C s1 i ∧
        s1.obj i = { s.obj i with name := some st, stateKnown := true, registered := false, thr := none, cached := none, cachedState := st, entry := some st } ∧
        handleChangeInternal C (s.setObj i { s.obj i with name := some st }) i g = (ensureRegistered C s1 i st g, true) := by
      cases hn : (s.obj i).name with
      | none =>
        rw [hn] at h1 h2 h3
        have ht : (s.obj i).thr = none := by
          cases ht : (s.obj i).thr with
          | none => rfl
          | some th => have := (O.shape th ht).1; rw [h2] at this; simp at this
        refine ⟨s.setObj i { s.obj i with name := some st, stateKnown := true, cachedState := st, entry := some st },
          calm_setObj _ _ _, A.setObj _ (.inl ⟨h3, h3⟩), ?_, ?_⟩
        · rw [setObj_obj, if_pos rfl, ← O.pair ht, ← ht, ← show (s.obj i).registered = false from h3]
        · have e : (s.setObj i { s.obj i with name := some st }).obj i = { s.obj i with name := some st } := by simp
          have h1 : (s.obj i).stateKnown = false := h1
          rw [hci_some C (b := false) (st := st) g (by rw [e]) (by rw [e]; simp [h1]) rfl, e, setObj_setObj]
          simp [h1, setObj_setObj]
      | some st' =>
        rw [hn] at h1 h2 h3
        have hd : st ≠ st' := fun h => hne (by rw [hn, h])
        obtain ⟨s0, hs0⟩ : ∃ s0, s0 = s.setObj i { s.obj i with name := some st, stateKnown := true } := ⟨_, rfl⟩
        have A0 : Almost C s0 i := by rw [hs0]; exact A.setObj _ (.inr ⟨rfl, rfl⟩)
        have hi0 : s0.obj i = { s.obj i with name := some st, stateKnown := true } := by rw [hs0]; simp
        obtain ⟨k1, k2, k3⟩ := invalidate_spec A0 (by rw [hi0]; simp [h2]) (by rw [hi0]; exact O.pair) (by rw [hi0]; exact O.plain)
        have C0 : Calm s s0 i := by rw [hs0]; exact calm_setObj _ _ _
        refine ⟨(invalidateOldState s0 i).setObj i { (invalidateOldState s0 i).obj i with cachedState := st, entry := some st },
          (C0.trans k1).trans (calm_setObj _ _ _), k2.setObj _ (.inl ⟨by rw [k3], by rw [k3]⟩), ?_, ?_⟩
        · rw [setObj_obj, if_pos rfl, k3, hi0]
        · have e : (s.setObj i { s.obj i with name := some st }).obj i = { s.obj i with name := some st } := by simp
          have h1 : (s.obj i).stateKnown = true := h1
          rw [hci_some C (b := true) (st := st) (s1 := invalidateOldState s0 i) g (by rw [e])
            (by rw [e]; simp [h1, h4 st' hn, hd]) (by rw [if_pos rfl, e, setObj_setObj, hs0]), e]
          simp
    obtain ⟨s1, C1, A1, hi1, he⟩ := pre
    refine ⟨_, he, ?_⟩
    have R := ensureRegistered_rg C (st := st) g A1 (by rw [hi1]) (by rw [hi1]) (by rw [hi1]) (by
      rw [hi1]
      refine ⟨fun _ => ⟨rfl, rfl, rfl, fun _ h => by simpa using h⟩, fun h => ?_, fun h => ?_, fun _ => rfl, fun _ => rfl, fun _ h => by simp at h⟩
      · exact absurd (ha.symm.trans h) (by decide)
      · exact absurd (hc.symm.trans h) (by decide))
    generalize ensureRegistered C s1 i st g = s2 at R
    obtain ⟨th, c, hs⟩ := R.same
    rw [hi1] at hs
    obtain ⟨q, hq, hq1, hq2⟩ := R.eff
    obtain ⟨new, hp, hj, hi⟩ := R.told
    refine ⟨R.inv, by rw [hs]; exact ha, by rw [hs], by rw [hs], by rw [hs], fun j hj => ?_,
      ⟨q, hq.calm_left C1, fun h => ?_, fun st0 h0 h => ?_⟩, new, by rw [hp, C1.published], fun j hji hv => hj j hji ?_, hi⟩
    · rw [← C1.other j hj]; exact R.others j hj
    · rcases hq1 with h' | h'
      · exact absurd h' h
      · exact h'
    · cases h0; have := hq2 h; rw [C1.value, C1.stamp, C1.cycle] at this; exact this
    · rw [C1.val hji]; exact hv

theorem upd_inv {C : Cfg} {s s' : Sys} {i : Nat} {b r : Bool} (U : Upd C s s' i b r) (F : ∀ j, j ≠ i → Fits C s j) : Inv C s' := by
  refine ⟨U.base, fun j => ?_⟩
  by_cases hj : j = i
  · rw [hj]; exact U.fits
  · exact (F j hj).of (U.other j hj) (fun st _ => U.keep.value st)

theorem rename_evt (C : Cfg) {s : Sys} {i : Nat} (I : Inv C s) (n : Option Nat) (g : Given)
    (ha : (s.obj i).active = true) (hc : (s.obj i).const = false) :
    let s' := handleChange C (s.setObj i { s.obj i with name := n }) i g
    Inv C s' ∧ (n = (s.obj i).name ∨ HC C s s' i n g) ∧ (∃ q, Eff s s' q g) ∧
    ∃ new, s'.published = new ++ s.published ∧ ∀ j, s'.value j ≠ s.value j → j ∈ new := by
  intro s'
  by_cases hn : n = (s.obj i).name
  · have e0 : s.setObj i { s.obj i with name := n } = s := by rw [hn]; exact setObj_self s i
    have e : handleChangeInternal C s i g = (s, false) := hci_same C g (I.ok i) ha
    have hs' : s' = if (s.obj i).onChange = true then (if (updateInternal C s i false).2 = true then (updateInternal C s i false).1.publish i else (updateInternal C s i false).1) else s := by
      show handleChange C _ i g = _
      unfold handleChange
      rw [e0, e]
      dsimp only
      split <;> simp
    rw [hs']
    split
    · next hch =>
      have U := updateInternal_upd C I.toBase i false ha hch
      have I' := upd_inv U (fun j _ => I.fits j)
      generalize updateInternal C s i false = r at U I'
      have E := eqv_publish r.1 i
      have hq : Eff s r.1 none g := ⟨U.keep.value, U.keep.stamp, U.keep.cycle, U.keep.queries⟩
      obtain ⟨th, c, hI⟩ := U.same
      split
      · next hr =>
        refine ⟨I'.eqv E, .inl hn, ⟨none, hq.keep_right E.keep⟩, [i], ?_, fun j hv => ?_⟩
        · rw [publish_spec _ _ (by rw [hI]; exact ha), U.published]; rfl
        · by_cases hj : j = i
          · simp [hj]
          · exact absurd (value_eq (by rw [E.obj]; exact U.other j hj) (fun st => (E.keep.value st).trans (U.keep.value st))) hv
      · next hr =>
        have hr : r.2 = false := by simpa using hr
        refine ⟨I', .inl hn, ⟨none, hq⟩, [], U.published, fun j hv => ?_⟩
        by_cases hj : j = i
        · subst hj
          exfalso
          apply hv
          by_cases ht : (s.obj j).thr = none
          · have hcn := (I.ok j).pair ht
            obtain ⟨_, he, _, _⟩ := (I.ok j).act ha
            unfold Sys.value
            rw [hI]
            simp only [ha, hch, U.keep.value, hcn]
            cases hst : (s.obj j).entry with
            | none => rfl
            | some st =>
              simp only
              have := U.init ht st hst
              rw [hI] at this
              simp only at this
              rcases this with h | h
              · rw [h]
              · rw [h]; cases (s.entry st).value <;> simp
          · exact value_of_thr I U.base j U.same ⟨ht, U.quiet hr ht (I.tol j ht)⟩
        · exact absurd (value_eq (U.other j hj) U.keep.value) hv
    · exact ⟨I, .inl hn, ⟨none, fun _ => rfl, fun _ => rfl, rfl, rfl⟩, [], rfl, fun j h => absurd rfl h⟩
  · obtain ⟨s1, e, H⟩ := hci_changed C I n g ha hc hn
    obtain ⟨new, hp, hj, hi⟩ := H.told
    obtain ⟨q, hq, hq1, hq2⟩ := H.eff
    have hs' : s' = if (s1.obj i).onChange = true then (if (updateInternal C s1 i true).2 = true then (updateInternal C s1 i true).1.publish i else (updateInternal C s1 i true).1) else s1.publish i := by
      show handleChange C _ i g = _
      unfold handleChange
      rw [e]
      dsimp only
      split <;> simp
    rw [hs']
    split
    · next hch =>
      have U := updateInternal_upd C H.inv.toBase i true H.active hch
      have I' := upd_inv U (fun j _ => H.inv.fits j)
      generalize updateInternal C s1 i true = r at U I'
      have E := eqv_publish r.1 i
      obtain ⟨th, c, hI⟩ := U.same
      have hv1 : ∀ j, j ≠ i → r.1.value j = s1.value j := fun j hj => value_eq (U.other j hj) U.keep.value
      split
      · next hr =>
        have hpub : (r.1.publish i).published = ([i] ++ new) ++ s.published := by
          rw [publish_spec _ _ (by rw [hI]; exact H.active), U.published, hp]; rfl
        refine ⟨I'.eqv E, .inr ?_, ⟨q, (hq.keep_right U.keep).keep_right E.keep⟩, [i] ++ new, hpub, fun j hv => ?_⟩
        · refine ⟨I'.eqv E, by rw [E.obj, hI]; exact H.active, by rw [E.obj, hI]; exact H.name, by rw [E.obj, hI]; exact H.onChange,
            by rw [E.obj, hI]; exact H.tol, fun j hji => by rw [E.obj, U.other j hji]; exact H.others j hji,
            ⟨q, (hq.keep_right U.keep).keep_right E.keep, hq1, hq2⟩, [i] ++ new, hpub, fun j hji hv => ?_, fun _ => by simp⟩
          exact List.mem_append_right _ (hj j hji (by
            rw [← hv1 j hji, ← value_eq (s := r.1) (by rw [E.obj]) E.keep.value]; exact hv))
        · by_cases hji : j = i
          · simp [hji]
          · exact List.mem_append_right _ (hj j hji (by
              rw [← hv1 j hji, ← value_eq (s := r.1) (by rw [E.obj]) E.keep.value]; exact hv))
      · next hr =>
        have hr : r.2 = false := by simpa using hr
        have ht : (s1.obj i).thr ≠ none := fun h => absurd (U.fresh h) (by rw [hr]; decide)
        refine ⟨I', .inr ?_, ⟨q, hq.keep_right U.keep⟩, new, by rw [U.published, hp], fun j hv => ?_⟩
        · exact ⟨I', by rw [hI]; exact H.active, by rw [hI]; exact H.name, by rw [hI]; exact H.onChange,
            by rw [hI]; exact H.tol, fun j hji => by rw [U.other j hji]; exact H.others j hji,
            ⟨q, hq.keep_right U.keep, hq1, hq2⟩, new, by rw [U.published, hp],
            fun j hji hv => hj j hji (by rw [← hv1 j hji]; exact hv), fun _ => hi ht⟩
        · by_cases hji : j = i
          · rw [hji]; exact hi ht
          · exact hj j hji (by rw [← hv1 j hji]; exact hv)
    · have E := eqv_publish s1 i
      have hpub : (s1.publish i).published = ([i] ++ new) ++ s.published := by
        rw [publish_spec _ _ H.active, hp]; rfl
      have hve : ∀ j, (s1.publish i).value j = s1.value j := fun j => value_eq (by rw [E.obj]) E.keep.value
      refine ⟨H.inv.eqv E, .inr ?_, ⟨q, hq.keep_right E.keep⟩, [i] ++ new, hpub, fun j hv => ?_⟩
      · refine ⟨H.inv.eqv E, by rw [E.obj]; exact H.active, by rw [E.obj]; exact H.name, by rw [E.obj]; exact H.onChange,
          by rw [E.obj]; exact H.tol, fun j hji => by rw [E.obj]; exact H.others j hji,
          ⟨q, hq.keep_right E.keep, hq1, hq2⟩, [i] ++ new, hpub, fun j hji hv => List.mem_append_right _ (hj j hji (by rw [← hve j]; exact hv)), fun _ => by simp⟩
      · by_cases hji : j = i
        · simp [hji]
        · exact List.mem_append_right _ (hj j hji (by rw [← hve j]; exact hv))

theorem retol_evt (C : Cfg) {s : Sys} {i : Nat} (I : Inv C s) (t : Option Int)
    (ha : (s.obj i).active = true) (hch : (s.obj i).onChange = true) :
    let s' := handleChange C (s.setObj i { s.obj i with tol := t }) i .nothing
    Inv C s' ∧ Keep s s' ∧ (∀ j, j ≠ i → s'.obj j = s.obj j) ∧
    (∃ th c, s'.obj i = { s.obj i with tol := t, thr := th, cached := c }) ∧
    ∃ new, s'.published = new ++ s.published ∧ ∀ j, s'.value j ≠ s.value j → j ∈ new ∨ (j = i ∧ t = none ∧ new = []) := by
  intro s'
  obtain ⟨s0, hs0⟩ : ∃ s0, s0 = s.setObj i { s.obj i with tol := t } := ⟨_, rfl⟩
  have hi0 : s0.obj i = { s.obj i with tol := t } := by rw [hs0]; simp
  have ho0 : ∀ j, j ≠ i → s0.obj j = s.obj j := fun j hj => by rw [hs0]; simp [hj]
  have K0 : Keep s s0 := by rw [hs0]; exact keep_setObj _ _ _
  have O := I.ok i
  have B0 : Base s0 := by
    refine ⟨by rw [hs0]; exact I.crash, fun j => ?_, ⟨fun st => ?_, fun st j => ?_⟩, fun j st => ?_⟩
    · by_cases hj : j = i
      · rw [hj, hi0]; exact ⟨O.act, O.inact, O.const, O.plain, O.pair, O.shape⟩
      · rw [ho0 j hj]; exact I.ok j
    · rw [K0.lookups]; exact I.reg.nodup st
    · rw [K0.lookups, I.reg.mem st j]
      by_cases hj : j = i
      · rw [hj, hi0]
      · rw [ho0 j hj]
    · rw [K0.value]
      by_cases hj : j = i
      · rw [hj, hi0]; exact I.val i st
      · rw [ho0 j hj]; exact I.val j st
  have ha0 : (s0.obj i).active = true := by rw [hi0]; exact ha
  have hch0 : (s0.obj i).onChange = true := by rw [hi0]; exact hch
  have e : handleChangeInternal C s0 i .nothing = (s0, false) := hci_same C .nothing (B0.ok i) ha0
  have hs' : s' = if (updateInternal C s0 i false).2 = true then (updateInternal C s0 i false).1.publish i else (updateInternal C s0 i false).1 := by
    show handleChange C _ i _ = _
    unfold handleChange
    rw [← hs0, e]
    simp only [hch0, if_true]
  have U := updateInternal_upd C B0 i false ha0 hch0
  have I' : Inv C (updateInternal C s0 i false).1 :=
    upd_inv U (fun j hj => (I.fits j).of (ho0 j hj) (fun st _ => K0.value st))
  rw [hs']
  generalize updateInternal C s0 i false = r at U I'
  have E := eqv_publish r.1 i
  have K := K0.trans U.keep
  obtain ⟨th, c, hI⟩ := U.same
  rw [hi0] at hI
  have hoth : ∀ j, j ≠ i → r.1.obj j = s.obj j := fun j hj => (U.other j hj).trans (ho0 j hj)
  have hpub : r.1.published = s.published := by rw [U.published, hs0]; rfl
  split
  · next hr =>
    refine ⟨I'.eqv E, K.trans E.keep, fun j hj => by rw [E.obj]; exact hoth j hj, ⟨th, c, by rw [E.obj]; exact hI⟩, [i], ?_, fun j hv => .inl ?_⟩
    · rw [publish_spec _ _ (by rw [hI]; exact ha), hpub]; rfl
    · by_cases hj : j = i
      · simp [hj]
      · exact absurd (value_eq (by rw [E.obj]; exact hoth j hj) (fun st => (E.keep.value st).trans (K.value st))) hv
  · next hr =>
    have hr : r.2 = false := by simpa using hr
    refine ⟨I', K, hoth, ⟨th, c, hI⟩, [], hpub, fun j hv => ?_⟩
    by_cases hj : j = i
    · right
      refine ⟨hj, ?_, rfl⟩
      cases t with
      | none => rfl
      | some t =>
        exfalso
        apply hv
        rw [hj]
        by_cases ht : (s.obj i).thr = none
        · have hcn := O.pair ht
          unfold Sys.value
          rw [hI]
          simp only [ha, hch, K.value, hcn]
          cases hst : (s.obj i).entry with
          | none => rfl
          | some st =>
            simp only
            have := U.init (by rw [hi0]; exact ht) st (by rw [hi0]; exact hst)
            rw [hI] at this
            simp only at this
            rcases this with h | h
            · rw [h]
            · rw [h, K0.value]; cases (s.entry st).value <;> simp
        · have hq := U.quiet hr (by rw [hi0]; exact ht) (by rw [hi0]; simp)
          obtain ⟨hh, st, he, _⟩ := I.toBase.thr_active i ht
          obtain ⟨th1, hth⟩ := Option.ne_none_iff_exists'.1 ht
          obtain ⟨_, c1, hc1, _⟩ := O.shape th1 hth
          obtain ⟨v, hv'⟩ := Option.ne_none_iff_exists'.1 (I.val i st ht he)
          have hcc : c = (s.obj i).cached := by have := hq.1; rw [hI, hi0] at this; exact this
          unfold Sys.value
          rw [hI]
          simp only [ha, hch, K.value, he, hv', hcc, hc1, if_true, Option.getD_some]
    · exact absurd (value_eq (hoth j hj) K.value) hv

/-- What the activation of a lookup does. -/
structure Ac (C : Cfg) (s s' : Sys) (i : Nat) (g : Given) : Prop where
  inv : Inv C s'
  active : (s'.obj i).active = true
  name : (s'.obj i).name = (s.obj i).name
  onChange : (s'.obj i).onChange = (s.obj i).onChange
  tol : (s'.obj i).tol = (s.obj i).tol
  others : ∀ j, j ≠ i → ∃ th c, s'.obj j = { s.obj j with thr := th, cached := c }
  eff : ∃ q, Eff s s' q g ∧ (q ≠ none → q = (s.obj i).name) ∧ (∀ st, (s.obj i).name = some st → q = none →
    (s.entry st).value ≠ none ∧ ¬ (s.entry st).stamp < s.cycle)
  told : ∃ new, s'.published = new ++ s.published ∧ ∀ j, j ≠ i → s'.value j ≠ s.value j → j ∈ new

theorem activate_ac (C : Cfg) {s : Sys} {i : Nat} (I : Inv C s) (g : Given) (ha : (s.obj i).active = false) :
    Ac C s (activate C s i g) i g := by
  have O := I.ok i
  obtain ⟨hreg, hthr, hent, hcs⟩ := O.inact ha
  have hcd := O.pair hthr
  have A := I.almost i
  -- the lookup once activated, before it registers
  obtain ⟨o, ho⟩ : ∃ o : Obj, o = { s.obj i with
      active := true, stateKnown := (s.obj i).name.isSome, cachedState := (s.obj i).name.getD (s.obj i).cachedState,
      entry := (s.obj i).name } := ⟨_, rfl⟩
  -- the system before `updateInternal`
  obtain ⟨s1, hs1⟩ : ∃ s1, s1 = (match o.entry with
    | some st => ensureRegistered C (s.setObj i o) i st g
    | none => s.setObj i o) := ⟨_, rfl⟩
  have eA : activate C s i g = if o.onChange = true then
      (if ((updateInternal C s1 i true).1).isKnown i = true then ((updateInternal C s1 i true).1).publish i else (updateInternal C s1 i true).1)
      else s1 := by
    have eo : activated (s.obj i) = o := by
      unfold activated
      dsimp only
      by_cases hc : (s.obj i).const = true
      · obtain ⟨hk, hn⟩ := O.const hc
        rw [if_pos hc, ho]
        by_cases he : (s.obj i).entry = none
        · rw [if_pos ⟨he, hk⟩]
          simp [hk, hn]
        · rw [if_neg (fun h => he h.1)]
          obtain ⟨st, hst⟩ := Option.ne_none_iff_exists'.1 he
          simp only [hk, hst, hcs st hst, Option.isSome_some, Option.getD_some, hn]
      · have hc' : (s.obj i).const = false := by simpa using hc
        rw [if_neg hc, ho]
        have he := hent hc'
        cases hn : (s.obj i).name with
        | none => simp [he, hn]
        | some st => simp [he, hn]
    unfold activate
    dsimp only
    rw [eo, hs1]; rfl
  have hoc : o.onChange = (s.obj i).onChange := by rw [ho]
  have P : Inv C s1 ∧ (∃ th c, s1.obj i = { o with registered := (s.obj i).name.isSome, thr := th, cached := c }) ∧
      (∀ j, j ≠ i → ∃ th c, s1.obj j = { s.obj j with thr := th, cached := c }) ∧
      (∃ q, Eff s s1 q g ∧ (q ≠ none → q = (s.obj i).name) ∧ (∀ st, (s.obj i).name = some st → q = none →
        (s.entry st).value ≠ none ∧ ¬ (s.entry st).stamp < s.cycle)) ∧
      ∃ new, s1.published = new ++ s.published ∧ ∀ j, j ≠ i → s1.value j ≠ s.value j → j ∈ new := by
    have A0 : Almost C (s.setObj i o) i := A.setObj _ (.inl ⟨by rw [ho]; exact hreg, hreg⟩)
    have C0 : Calm s (s.setObj i o) i := calm_setObj _ _ _
    have hi0 : (s.setObj i o).obj i = o := by simp
    have hok : Ok { o with registered := (s.obj i).name.isSome } := by
      rw [ho]
      refine ⟨fun _ => ⟨rfl, rfl, rfl, fun st h => ?_⟩, fun h => by simp at h, fun h => ?_, O.plain, O.pair, fun th h => ?_⟩
      · simp only at h ⊢; rw [h]; rfl
      · obtain ⟨hk, hn⟩ := O.const h
        simp only [hn]; simp
      · simp only at h; rw [hthr] at h; simp at h
    cases hn : (s.obj i).name with
    | none =>
      have he : o.entry = none := by rw [ho]; exact hn
      have e1 : s1 = s.setObj i o := by rw [hs1, he]
      rw [e1]
      have hr0 : ({ o with registered := false } : Obj) = o := by
        rw [ho]; simp only [hreg]
      rw [hn] at hok
      have hok : Ok o := by rw [← hr0]; exact hok
      refine ⟨A0.inv (by rw [hi0]; exact hok) (by rw [hi0, ho]; exact hthr), ⟨o.thr, o.cached, ?_⟩,
        fun j hj => ⟨(s.obj j).thr, (s.obj j).cached, C0.other j hj⟩,
        ⟨none, ⟨C0.value, C0.stamp, C0.cycle, C0.queries⟩, by simp, by simp⟩, [], C0.published,
        fun j hj hv => absurd (C0.val hj) hv⟩
      rw [hi0]; exact hr0.symm
    | some st =>
      have he : o.entry = some st := by rw [ho]; exact hn
      have e1 : s1 = ensureRegistered C (s.setObj i o) i st g := by rw [hs1, he]
      rw [hn] at hok
      have R := ensureRegistered_rg C (st := st) g A0 (by rw [hi0, ho]; exact hreg) (by rw [hi0, ho]; exact hthr)
        (by rw [hi0]; exact he) (by rw [hi0]; exact hok)
      rw [e1]
      generalize ensureRegistered C (s.setObj i o) i st g = s2 at R
      obtain ⟨th, c, hs⟩ := R.same
      rw [hi0] at hs
      obtain ⟨q, hq, hq1, hq2⟩ := R.eff
      obtain ⟨new, hp, hj, _⟩ := R.told
      refine ⟨R.inv, ⟨th, c, hs⟩, fun j hj => ?_, ⟨q, hq.calm_left C0, fun h => ?_, fun st0 h0 h => ?_⟩, new, hp,
        fun j hji hv => hj j hji (by rw [C0.val hji]; exact hv)⟩
      · have := R.others j hj; rw [C0.other j hj] at this; exact this
      · rcases hq1 with h' | h'
        · exact absurd h' h
        · exact h'
      · cases h0; exact hq2 h
  obtain ⟨I1, ⟨th1, c1, hi1⟩, hoth, ⟨q, hq, hq1, hq2⟩, new, hp, hnew⟩ := P
  have ha1 : (s1.obj i).active = true := by rw [hi1, ho]
  have hn1 : (s1.obj i).name = (s.obj i).name := by rw [hi1, ho]
  have hc1 : (s1.obj i).onChange = (s.obj i).onChange := by rw [hi1]; exact hoc
  have ht1 : (s1.obj i).tol = (s.obj i).tol := by rw [hi1, ho]
  rw [eA]
  split
  · next hch =>
    have U := updateInternal_upd C I1.toBase i true ha1 (by rw [hc1, ← hoc]; exact hch)
    have I' := upd_inv U (fun j _ => I1.fits j)
    generalize updateInternal C s1 i true = r at U I'
    obtain ⟨th, c, hI⟩ := U.same
    have base : Ac C s r.1 i g := by
      refine ⟨I', by rw [hI]; exact ha1, by rw [hI]; exact hn1, by rw [hI]; exact hc1, by rw [hI]; exact ht1,
        fun j hj => by rw [U.other j hj]; exact hoth j hj, ⟨q, hq.keep_right U.keep, hq1, hq2⟩, new, by rw [U.published, hp],
        fun j hj hv => hnew j hj (by rw [← value_eq (U.other j hj) U.keep.value]; exact hv)⟩
    split
    · have E := eqv_publish r.1 i
      obtain ⟨new', hp', hn'⟩ := base.told
      refine ⟨I'.eqv E, by rw [E.obj]; exact base.active, by rw [E.obj]; exact base.name, by rw [E.obj]; exact base.onChange,
        by rw [E.obj]; exact base.tol, fun j hj => by rw [E.obj]; exact base.others j hj,
        ⟨q, (hq.keep_right U.keep).keep_right E.keep, hq1, hq2⟩, [i] ++ new', ?_, fun j hj hv => ?_⟩
      · rw [publish_spec _ _ base.active, hp']; rfl
      · exact List.mem_append_right _ (hn' j hj (by rw [← value_eq (s := r.1) (by rw [E.obj]) E.keep.value]; exact hv))
    · exact base
  · exact ⟨I1, ha1, hn1, hc1, ht1, hoth, ⟨q, hq, hq1, hq2⟩, new, hp, hnew⟩

theorem deactivate_spec (C : Cfg) {s : Sys} {i : Nat} (I : Inv C s) (ha : (s.obj i).active = true) :
    Inv C (deactivate s i) ∧ Calm s (deactivate s i) i ∧ ((deactivate s i).obj i).active = false ∧
      ((deactivate s i).obj i).name = (s.obj i).name ∧ ((deactivate s i).obj i).onChange = (s.obj i).onChange ∧
      ((deactivate s i).obj i).tol = (s.obj i).tol := by
  have O := I.ok i
  obtain ⟨h1, h2, h3, h4⟩ := O.act ha
  obtain ⟨s0, hs0⟩ : ∃ s0, s0 = s.setObj i { s.obj i with active := false } := ⟨_, rfl⟩
  have hi0 : s0.obj i = { s.obj i with active := false } := by rw [hs0]; simp
  have C0 : Calm s s0 i := by rw [hs0]; exact calm_setObj _ _ _
  have A0 : Almost C s0 i := by rw [hs0]; exact (I.almost i).setObj _ (.inr ⟨rfl, rfl⟩)
  obtain ⟨k1, k2, k3⟩ := unregister_spec A0 (by
    rw [hi0]; simp only; rw [h3, h2]; intro h; exact Option.isSome_iff_ne_none.1 h)
  obtain ⟨s1, hs1⟩ : ∃ s1, s1 = (if (s0.obj i).stateKnown = true then unregister s0 i else s0) := ⟨_, rfl⟩
  have C1 : Calm s0 s1 i := by
    rw [hs1]; split
    · exact k1
    · exact Calm.refl _ _
  have A1 : Almost C s1 i := by
    rw [hs1]; split
    · exact k2
    · exact A0
  have hi1 : s1.obj i = { s.obj i with active := false, registered := false } := by
    rw [hs1]; split
    · rw [k3, hi0]
    · next h =>
      rw [hi0] at h ⊢
      simp only at h
      have : (s.obj i).registered = false := by rw [h3, ← h1]; simpa using h
      rw [← this]
  obtain ⟨o, ho⟩ : ∃ o : Obj, o = { s.obj i with
      active := false, registered := false, thr := none, cached := none,
      entry := (if (s.obj i).const = true then (s.obj i).entry else none) } := ⟨_, rfl⟩
  have e : deactivate s i = s1.setObj i o := by
    unfold deactivate
    dsimp only
    rw [← hs0, ← hs1]
    congr 1
    rw [hi1, ho]
    cases ht : (s.obj i).thr with
    | none =>
      have hcn := O.pair ht
      by_cases hc : (s.obj i).const = true
      · simp [hc, ht, hcn]
      · simp [hc, hcn]
    | some th =>
      have hch : (s.obj i).onChange = true := by
        cases hch : (s.obj i).onChange with
        | true => rfl
        | false => rw [O.plain hch] at ht; simp at ht
      by_cases hc : (s.obj i).const = true
      · simp [hc, ht, hch]
      · simp [hc, hch]
  rw [e]
  refine ⟨(A1.setObj o (.inl ⟨by rw [ho], by rw [hi1]⟩)).inv ?_ (by rw [setObj_obj, if_pos rfl, ho]),
    (C0.trans C1).trans (calm_setObj _ _ _), by rw [setObj_obj, if_pos rfl, ho], by rw [setObj_obj, if_pos rfl, ho],
    by rw [setObj_obj, if_pos rfl, ho], by rw [setObj_obj, if_pos rfl, ho]⟩
  rw [setObj_obj, if_pos rfl, ho]
  refine ⟨fun h => by simp at h, fun _ => ⟨rfl, rfl, fun h => ?_, fun st h => ?_⟩, O.const, fun _ => rfl, fun _ => rfl, fun _ h => by simp at h⟩
  · simp only at h ⊢; simp [h]
  · simp only at h ⊢
    split at h
    · exact h4 st (by rw [← h2]; exact h)
    · simp at h

end Verif.Lookup
