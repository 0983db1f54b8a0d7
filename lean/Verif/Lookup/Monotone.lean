import Verif.Lookup.Settled

/-! A state whose values never decrease (the time): what a lookup reports is never more than the state's value. -/
set_option autoImplicit false
namespace Verif.Lookup

/-- What lookup `j` has kept of state `T` is not more than the value of `T`. -/
def MT (T : Nat) (s : Sys) (j : Nat) : Prop :=
  ∀ c v, (s.obj j).entry = some T → (s.obj j).cached = some (some c) → (s.entry T).value = some (some v) → c ≤ v

theorem MT.of {T : Nat} {s s' : Sys} {j : Nat} (h : MT T s j) (ho : s'.obj j = s.obj j)
    (hv : (s.obj j).entry = some T → (s'.entry T).value = (s.entry T).value) : MT T s' j := by
  intro c v h1 h2 h3
  rw [ho] at h1 h2
  rw [hv h1] at h3
  exact h c v h1 h2 h3

theorem mt_of_none {T : Nat} {s : Sys} {j : Nat} (h : (s.obj j).cached = none) : MT T s j := by
  intro c v _ h2; rw [h] at h2; cases h2

theorem publish_mt {T : Nat} {s : Sys} {j : Nat} (i : Nat) (h : MT T s j) : MT T (s.publish i) j := by
  unfold Sys.publish; split <;> exact h

theorem updateInternal_mt (C : Cfg) {T : Nat} {s : Sys} (B : Base s) (i : Nat) (b : Bool) (ha : (s.obj i).active = true)
    (hch : (s.obj i).onChange = true) (h : ∀ j, MT T s j) : ∀ j, MT T (updateInternal C s i b).1 j := by
  have U := updateInternal_upd C B i b ha hch
  have O := B.ok i
  intro j
  by_cases hj : j = i
  · subst hj
    have val : ∀ t, ((updateInternal C s j b).1.entry t).value = (s.entry t).value := U.keep.value
    cases hthr : (s.obj j).thr with
    | some th =>
      obtain ⟨hent, c, hc, _, _⟩ := O.shape th hthr
      obtain ⟨st, hst⟩ := Option.isSome_iff_exists.1 hent
      obtain ⟨w, hw⟩ := Option.ne_none_iff_exists'.1 (B.val j st (by rw [hthr]; simp) hst)
      cases htol : (s.obj j).tol with
      | some t =>
        generalize hth0 : (if toleranceChanged th t = true then setThresholds th ((s.obj j).cached.getD none) t else th) = th0
        have e := updateInternal_known C s j b hthr hst htol hw hth0
        intro c' v h1 h2 h3
        rw [val] at h3
        rw [e] at h1 h2
        split at h1
        · next hx =>
          rw [if_pos hx] at h2
          simp only [updateThresholds_obj, setObj_obj, if_true] at h1 h2
          rw [h1] at hst
          cases hst
          rw [hw] at h3
          have : (some c' : Option Int) = some v := by rw [← Option.some.inj h2, Option.some.inj h3]
          cases this; omega
        · next hx =>
          rw [if_neg hx] at h2
          simp only [setObj_obj, if_true] at h1 h2
          exact h j c' v h1 h2 h3
      | none =>
        refine mt_of_none ?_
        rw [updateInternal_lost C s j b hthr hst htol]
        simp [updateThresholds_obj]
    | none =>
      by_cases hex : ∃ st t v, (s.obj j).entry = some st ∧ (s.obj j).tol = some t ∧ (s.entry st).value = some (some v)
      · obtain ⟨st, t, w, hst, htol, hw⟩ := hex
        intro c' v h1 h2 h3
        rw [val] at h3
        rw [updateInternal_new C s j b hthr hst htol hw] at h1 h2
        simp only [updateThresholds_obj, setObj_obj, if_true] at h1 h2
        rw [h1] at hst
        cases hst
        rw [hw] at h3
        cases h2; cases h3; omega
      · rw [updateInternal_none C s j b hthr hex]; exact h j
  · exact (h j).of (U.other j hj) (fun _ => U.keep.value T)

theorem valueChanged_mt (C : Cfg) {T : Nat} {s : Sys} (B : Base s) (i : Nat) (ha : (s.obj i).active = true)
    (h : ∀ j, MT T s j) : ∀ j, MT T (valueChanged C s i) j := by
  intro j
  unfold valueChanged
  by_cases hch : (s.obj i).onChange = true
  · rw [if_pos hch, if_pos ha]
    dsimp only
    split
    · exact publish_mt i (updateInternal_mt C B i true ha hch h j)
    · exact updateInternal_mt C B i true ha hch h j
  · rw [if_neg hch]; exact publish_mt i (h j)

theorem notifyAll_mt (C : Cfg) {T : Nat} (l : List Nat) : ∀ {s : Sys}, Base s → l.Nodup →
    (∀ i ∈ l, (s.obj i).active = true ∧ ((s.obj i).thr ≠ none → (s.obj i).tol ≠ none)) →
    (∀ j, MT T s j) → ∀ j, MT T (notifyAll C s l) j := by
  induction l with
  | nil => intro s _ _ _ h; exact h
  | cons i l ih =>
    intro s B hn hl h
    obtain ⟨hni, hn⟩ := List.nodup_cons.1 hn
    obtain ⟨h1, h2⟩ := hl i (by simp)
    have V := valueChanged_vc C B i h1 h2
    exact ih V.base hn (fun k hk => by
      rw [V.other k (fun e => hni (e ▸ hk))]; exact hl k (List.mem_cons_of_mem _ hk)) (valueChanged_mt C B i h1 h)

/-- What is given to `T` is not less than its value. -/
def Later (T : Nat) (s : Sys) (g : Given) : Prop := ∀ v v', (s.entry T).value = some (some v) → g = .known v' → v ≤ v'

theorem give_mt (C : Cfg) {T : Nat} {s : Sys} (I : Inv C s) (st : Nat) (g : Given) (hg : st = T → Later T s g)
    (h : ∀ j, MT T s j) : ∀ j, MT T (give C s st g) j := by
  -- after the value is set
  have set : ∀ v : Option Int, (st = T → ∀ x y, (s.entry T).value = some (some x) → v = some y → x ≤ y) →
      ∀ j, MT T (s.setEntry st { s.entry st with value := some v, stamp := s.cycle }) j := by
    intro v hv j
    by_cases hst : st = T
    · subst hst
      intro c y h1 h2 h3
      simp only [setEntry_obj, setEntry_entry, if_true] at h1 h2 h3
      have h3 : v = some y := Option.some.inj h3
      -- it was known
      obtain ⟨th, hth⟩ : ∃ th, (s.obj j).thr = some th := by
        cases ht : (s.obj j).thr with
        | none => rw [(I.ok j).pair ht] at h2; cases h2
        | some th => exact ⟨th, rfl⟩
      obtain ⟨w, hw⟩ := Option.ne_none_iff_exists'.1 (I.val j st (by rw [hth]; simp) h1)
      rcases (I.fits j th hth _ h2).2 st w h1 hw with e | ⟨b, x, _, e, _⟩ | ⟨_, e⟩
      · subst e
        exact hv rfl c y hw h3
      · subst e
        have g1 := h j c x h1 h2 hw
        have g2 := hv rfl x y hw h3
        omega
      · cases e
    · refine (h j).of rfl (fun _ => ?_)
      simp only [setEntry_entry, if_neg (Ne.symm hst)]
  have tell : ∀ v : Option Int, (st = T → ∀ x y, (s.entry T).value = some (some x) → v = some y → x ≤ y) →
      ∀ j, MT T (notifyAll C (s.setEntry st { s.entry st with value := some v, stamp := s.cycle }) (s.entry st).lookups) j := by
    intro v hv
    have B := base_setValue I.toBase st { s.entry st with value := some v, stamp := s.cycle } rfl (by simp)
    exact notifyAll_mt C _ B (I.reg.nodup st) (fun k hk => ⟨(I.toBase.mem_active hk).1, I.tol k⟩) (set v hv)
  have un : st = T → ∀ x y : Int, (s.entry T).value = some (some x) → (none : Option Int) = some y → x ≤ y :=
    fun _ _ _ _ e => by cases e
  unfold give
  dsimp only
  cases g with
  | nothing => exact h
  | known v =>
    dsimp only
    split
    · exact h
    · exact tell (some v) (fun e x y h1 h2 => hg e x y h1 (by cases h2; rfl))
  | unknown =>
    dsimp only
    split
    · exact tell none un
    · exact set none un
  | clear =>
    dsimp only
    split
    · exact h
    · split
      · exact tell none un
      · exact set none un

theorem ensureRegistered_mt (C : Cfg) {T : Nat} {s : Sys} {i st : Nat} (g : Given) (A : Almost C s i)
    (hr : (s.obj i).registered = false) (ht : (s.obj i).thr = none) (he : (s.obj i).entry = some st)
    (O : Ok { s.obj i with registered := true }) (hg : st = T → Later T s g) (h : ∀ j, MT T s j) :
    ∀ j, MT T (ensureRegistered C s i st g) j := by
  have T1 : ∀ j, MT T ((s.setObj i { s.obj i with registered := true }).setEntry st
      { s.entry st with lookups := (s.entry st).lookups ++ [i] }) j := by
    intro j
    by_cases hj : j = i
    · subst hj
      refine mt_of_none ?_
      simp only [setEntry_obj, setObj_obj, if_true]
      exact O.pair ht
    · refine (h j).of (by simp [hj]) (fun _ => ?_)
      simp only [setEntry_entry]; split
      · next h => rw [h]
      · rfl
  unfold ensureRegistered
  simp only [hr, Bool.false_eq_true, if_false]
  split
  · next hq =>
    refine give_mt C ?_ st g ?_ T1
    · have R := ensureRegistered_rg C (st := st) .nothing A hr ht he O
      have e : ensureRegistered C s i st .nothing = { (s.setObj i { s.obj i with registered := true }).setEntry st
        { s.entry st with lookups := (s.entry st).lookups ++ [i] } with queries := (st, s.cycle) :: s.queries } := by
        unfold ensureRegistered
        simp only [hr, Bool.false_eq_true, if_false, hq, if_true]
        rfl
      have I := R.inv
      rw [e] at I
      exact I
    · intro e v v' h1 h2
      refine hg e v v' ?_ h2
      subst e
      simpa using h1
  · exact T1

theorem Calm.mt {T : Nat} {s s' : Sys} {i j : Nat} (h : Calm s s' i) (hj : j ≠ i) (H : MT T s j) : MT T s' j :=
  H.of (h.other j hj) (fun _ => h.value T)

/-- A change of lookup `i` that keeps what it has kept, or drops it. -/
theorem setObj_mt {T : Nat} {s : Sys} {i : Nat} {o : Obj} (ho : o.cached = none ∨ (o.cached = (s.obj i).cached ∧ o.entry = (s.obj i).entry))
    (h : ∀ j, MT T s j) : ∀ j, MT T (s.setObj i o) j := by
  intro j
  by_cases hj : j = i
  · subst hj
    rcases ho with ho | ⟨h1, h2⟩
    · exact mt_of_none (by simp [ho])
    · intro c v g1 g2 g3
      simp only [setObj_obj, if_true] at g1 g2
      rw [h1] at g2; rw [h2] at g1
      exact h j c v g1 g2 g3
  · exact (calm_setObj s i o).mt hj (h j)

theorem hci_mt (C : Cfg) {T : Nat} {s : Sys} {i : Nat} (I : Inv C s) (n : Option Nat) (g : Given)
    (ha : (s.obj i).active = true) (hc : (s.obj i).const = false) (hne : n ≠ (s.obj i).name) (hg : n = some T → Later T s g)
    (h : ∀ j, MT T s j) : ∀ j, MT T (handleChangeInternal C (s.setObj i { s.obj i with name := n }) i g).1 j := by
  have O := I.ok i
  obtain ⟨h1, h2, h3, h4⟩ := O.act ha
  have A := I.almost i
  cases n with
  | none =>
    obtain ⟨st', hst'⟩ := Option.ne_none_iff_exists'.1 (Ne.symm hne)
    rw [hst'] at h1 h2 h3
    have e : (s.setObj i { s.obj i with name := none }).obj i = { s.obj i with name := none } := by simp
    have h1 : (s.obj i).stateKnown = true := h1
    rw [hci_none C g (by rw [e]), e, setObj_setObj]
    simp only [h1, if_true]
    have A0 : Almost C (s.setObj i { s.obj i with name := none, stateKnown := false }) i := A.setObj _ (.inr ⟨rfl, rfl⟩)
    obtain ⟨k1, _, k3⟩ := invalidate_spec A0 (by simp [h2]) (by simpa using O.pair) (by simpa using O.plain)
    intro j
    by_cases hj : j = i
    · subst hj; exact mt_of_none (by rw [k3])
    · exact k1.mt hj ((calm_setObj s i _).mt hj (h j))
  | some st =>
    have reg : ∀ s1 : Sys, Almost C s1 i →
        s1.obj i = { s.obj i with name := some st, stateKnown := true, registered := false, thr := none, cached := none, cachedState := st, entry := some st } →
        (∀ t, (s1.entry t).value = (s.entry t).value) →
        (∀ j, MT T s1 j) → ∀ j, MT T (ensureRegistered C s1 i st g) j := by
      intro s1 A1 hi1 hv1 T1
      refine ensureRegistered_mt C g A1 (by rw [hi1]) (by rw [hi1]) (by rw [hi1]) ?_ ?_ T1
      · rw [hi1]
        refine ⟨fun _ => ⟨rfl, rfl, rfl, fun _ h => by simpa using h⟩, fun h => ?_, fun h => ?_, fun _ => rfl, fun _ => rfl, fun _ h => by simp at h⟩
        · exact absurd (ha.symm.trans h) (by decide)
        · exact absurd (hc.symm.trans h) (by decide)
      · intro e v v' k1 k2
        rw [hv1] at k1
        exact hg (by rw [e]) v v' k1 k2
    have e : (s.setObj i { s.obj i with name := some st }).obj i = { s.obj i with name := some st } := by simp
    cases hn : (s.obj i).name with
    | none =>
      rw [hn] at h1 h2 h3
      have ht : (s.obj i).thr = none := by
        cases ht : (s.obj i).thr with
        | none => rfl
        | some th => have := (O.shape th ht).1; rw [h2] at this; simp at this
      have h1 : (s.obj i).stateKnown = false := h1
      rw [hci_some C (b := false) (st := st) g (by rw [e]) (by rw [e]; simp [h1]) rfl, e, setObj_setObj]
      simp only [Bool.false_eq_true, if_false, setObj_obj, if_true, setObj_setObj]
      refine reg _ (A.setObj _ (.inl ⟨h3, h3⟩)) ?_ (fun _ => rfl) (setObj_mt (.inl (O.pair ht)) h)
      rw [setObj_obj, if_pos rfl, ← O.pair ht, ← ht, ← show (s.obj i).registered = false from h3]
    | some st' =>
      rw [hn] at h1 h2 h3
      have hd : st ≠ st' := fun h => hne (by rw [hn, h])
      obtain ⟨s0, hs0⟩ : ∃ s0, s0 = s.setObj i { s.obj i with name := some st, stateKnown := true } := ⟨_, rfl⟩
      have A0 : Almost C s0 i := by rw [hs0]; exact A.setObj _ (.inr ⟨rfl, rfl⟩)
      have hi0 : s0.obj i = { s.obj i with name := some st, stateKnown := true } := by rw [hs0]; simp
      have he0 : (s0.obj i).registered = true → (s0.obj i).entry ≠ none := by rw [hi0]; simp [h2]
      obtain ⟨k1, k2, k3⟩ := invalidate_spec A0 he0 (by rw [hi0]; exact O.pair) (by rw [hi0]; exact O.plain)
      have h1 : (s.obj i).stateKnown = true := h1
      rw [hci_some C (b := true) (st := st) (s1 := invalidateOldState s0 i) g (by rw [e])
        (by rw [e]; simp [h1, h4 st' hn, hd]) (by rw [if_pos rfl, e, setObj_setObj, hs0])]
      refine reg _ (k2.setObj _ (.inl ⟨by rw [k3], by rw [k3]⟩)) (by rw [setObj_obj, if_pos rfl, k3, hi0]) ?_ ?_
      · intro t
        show ((invalidateOldState s0 i).entry t).value = _
        rw [k1.value, hs0]; rfl
      · refine setObj_mt (.inl (by rw [k3])) (fun j => ?_)
        by_cases hj : j = i
        · subst hj; exact mt_of_none (by rw [k3])
        · refine k1.mt hj ?_
          rw [hs0]; exact (calm_setObj s i _).mt hj (h j)

theorem handleChange_mt (C : Cfg) {T : Nat} {s : Sys} {i : Nat} (g : Given) (B : Base (handleChangeInternal C s i g).1)
    (ha : ((handleChangeInternal C s i g).1.obj i).active = true)
    (h : ∀ j, MT T (handleChangeInternal C s i g).1 j) : ∀ j, MT T (handleChange C s i g) j := by
  intro j
  unfold handleChange
  dsimp only
  by_cases hch : ((handleChangeInternal C s i g).1.obj i).onChange = true
  · simp only [if_pos hch]
    split
    · exact publish_mt i (updateInternal_mt C B i _ ha hch h j)
    · exact updateInternal_mt C B i _ ha hch h j
  · simp only [if_neg hch]
    split
    · exact publish_mt i (h j)
    · exact h j

/-- The event does not take the value of state `T` back. -/
def Ev.forward (T : Nat) (s : Sys) : Ev → Prop
  | .give st g => st = T → Later T s g
  | .activate i g => (s.obj i).name = some T → Later T s g
  | .rename _ n g => n = some T → Later T s g
  | _ => True

theorem step_mt (C : Cfg) {T : Nat} {s : Sys} (I : Inv C s) (e : Ev) (hf : e.forward T s) (h : ∀ j, MT T s j) :
    ∀ j, MT T (step C s e) j := by
  cases e with
  | activate i g =>
    simp only [step]
    split
    · exact h
    · next hna =>
      have ha : (s.obj i).active = false := by simpa using hna
      obtain ⟨o, s1, he, I1, ha1, hc1, hthr, hs1⟩ := activate_split C I g ha
      have hcn : o.cached = none ∨ s1 = s.setObj i o := by
        rcases hs1 with e | ⟨st, _, _, _, _, h3, _⟩
        · exact .inr e
        · exact .inl (h3.pair hthr)
      have hcn : o.cached = none := by
        rcases hcn with e | e
        · exact e
        · have := (I1.ok i).pair (by rw [e]; simpa using hthr)
          rw [e] at this
          simpa using this
      have T0 : ∀ j, MT T (s.setObj i o) j := setObj_mt (.inl hcn) h
      have T1 : ∀ j, MT T s1 j := by
        rcases hs1 with rfl | ⟨st, rfl, A0, h1, h2, h3, h4⟩
        · exact T0
        · exact ensureRegistered_mt C (st := st) g A0 (by simpa using h1) (by simpa using hthr) (by simpa using h2)
            (by simpa using h3) (fun e => hf (by rw [h4, e])) T0
      rw [he]
      split
      · next hch =>
        have T2 := updateInternal_mt C I1.toBase i true ha1 (by rw [hc1]; exact hch) T1
        split
        · exact fun j => publish_mt i (T2 j)
        · exact T2
      · exact T1
  | deactivate i =>
    simp only [step]
    split
    · next ha =>
      obtain ⟨h1, h2, h3, _⟩ := deactivate_spec C I ha
      intro j
      by_cases hj : j = i
      · subst hj
        exact mt_of_none ((h1.ok j).pair ((h1.ok j).inact h3).2.1)
      · exact h2.mt hj (h j)
    · exact h
  | rename i n g =>
    simp only [step]
    split
    · exact h
    · next hc =>
      have hc : (s.obj i).const = false := by simpa using hc
      simp only [setObj_obj, if_true]
      split
      · next ha =>
        by_cases hn : n = (s.obj i).name
        · have e0 : s.setObj i { s.obj i with name := n } = s := by rw [hn]; exact setObj_self s i
          have e : handleChangeInternal C s i g = (s, false) := hci_same C g (I.ok i) ha
          rw [e0]
          exact handleChange_mt C g (by rw [e]; exact I.toBase) (by rw [e]; exact ha) (by rw [e]; exact h)
        · obtain ⟨s1, e, H⟩ := hci_changed C I n g ha hc hn
          have T1 := hci_mt C I n g ha hc hn hf h
          exact handleChange_mt C g (by rw [e]; exact H.inv.toBase) (by rw [e]; exact H.active) T1
      · exact setObj_mt (.inr ⟨rfl, rfl⟩) h
  | retol i t =>
    simp only [step, setObj_obj, if_true]
    have T0 : ∀ j, MT T (s.setObj i { s.obj i with tol := t }) j := setObj_mt (.inr ⟨rfl, rfl⟩) h
    split
    · next hh =>
      obtain ⟨s0, hs0⟩ : ∃ s0, s0 = s.setObj i { s.obj i with tol := t } := ⟨_, rfl⟩
      have hi0 : s0.obj i = { s.obj i with tol := t } := by rw [hs0]; simp
      have ho0 : ∀ j, j ≠ i → s0.obj j = s.obj j := fun j hj => by rw [hs0]; simp [hj]
      have K0 : Keep s s0 := by rw [hs0]; exact keep_setObj _ _ _
      have O := I.ok i
      have B0 : Base s0 := by
        refine ⟨by rw [hs0]; exact I.crash, fun j => ?_, ⟨fun st => ?_, fun st j => ?_⟩, fun j st => ?_⟩
        · by_cases hj : j = i
          · rw [hj, hi0]; exact ⟨O.act, O.inact, O.const, O.plain, O.pair, O.shape⟩
          · rw [ho0 j hj]; exact I.ok j
        · rw [K0.lookups]; exact I.reg.nodup st
        · rw [K0.lookups, I.reg.mem st j]
          by_cases hj : j = i
          · rw [hj, hi0]
          · rw [ho0 j hj]
        · rw [K0.value]
          by_cases hj : j = i
          · rw [hj, hi0]; exact I.val i st
          · rw [ho0 j hj]; exact I.val j st
      have e : handleChangeInternal C s0 i .nothing = (s0, false) := hci_same C .nothing (B0.ok i) (by rw [hi0]; exact hh.1)
      rw [← hs0] at T0 ⊢
      exact handleChange_mt C .nothing (by rw [e]; exact B0) (by rw [e, hi0]; exact hh.1) (by rw [e]; exact T0)
    · exact T0
  | give st g => exact give_mt C I st g hf h
  | tick => exact h

end Verif.Lookup
