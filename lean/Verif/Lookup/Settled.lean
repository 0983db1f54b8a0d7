import Verif.Lookup.Steps

/-! An active lookup with a known tolerance on a state with a known value has thresholds. -/
namespace Verif.Lookup

def SE (s : Sys) (j : Nat) : Prop :=
  ∀ st v, (s.obj j).active = true → (s.obj j).onChange = true → (s.obj j).entry = some st → (s.obj j).tol ≠ none →
    (s.entry st).value = some (some v) → (s.obj j).thr ≠ none

theorem SE.of {s s' : Sys} {j : Nat} (h : SE s j) (ho : s'.obj j = s.obj j)
    (hv : ∀ st, (s.obj j).entry = some st → (s'.entry st).value = (s.entry st).value) : SE s' j := by
  intro st v h1 h2 h3 h4 h5
  rw [ho] at h1 h2 h3 h4 ⊢
  rw [hv st h3] at h5
  exact h st v h1 h2 h3 h4 h5

theorem publish_se {s : Sys} {j : Nat} (i : Nat) (h : SE s j) : SE (s.publish i) j := by
  unfold Sys.publish; split <;> exact h

theorem updateInternal_se (C : Cfg) {s : Sys} (B : Base s) (i : Nat) (b : Bool) (ha : (s.obj i).active = true)
    (hch : (s.obj i).onChange = true) (j : Nat) (h : j ≠ i → SE s j) : SE (updateInternal C s i b).1 j := by
  have U := updateInternal_upd C B i b ha hch
  by_cases hj : j = i
  · subst hj
    obtain ⟨th', c', hs⟩ := U.same
    intro st v h1 h2 h3 h4 h5
    rw [hs] at h3 h4
    simp only at h3 h4
    rw [U.keep.value] at h5
    obtain ⟨t, htol⟩ := Option.ne_none_iff_exists'.1 h4
    cases hthr : (s.obj j).thr with
    | some th =>
      generalize hth0 : (if toleranceChanged th t = true then setThresholds th ((s.obj j).cached.getD none) t else th) = th0
      rw [updateInternal_known C s j b hthr h3 htol h5 hth0]
      split
      · simp [updateThresholds_obj]
      · simp
    | none =>
      rw [updateInternal_new C s j b hthr h3 htol h5]
      simp [updateThresholds_obj]
  · exact (h hj).of (U.other j hj) (fun st _ => U.keep.value st)

theorem valueChanged_se (C : Cfg) {s : Sys} (B : Base s) (i : Nat) (ha : (s.obj i).active = true)
    (j : Nat) (h : j ≠ i → SE s j) : SE (valueChanged C s i) j := by
  unfold valueChanged
  by_cases hch : (s.obj i).onChange = true
  · rw [if_pos hch, if_pos ha]
    dsimp only
    split
    · exact publish_se i (updateInternal_se C B i true ha hch j h)
    · exact updateInternal_se C B i true ha hch j h
  · rw [if_neg hch]
    apply publish_se
    by_cases hj : j = i
    · subst hj; exact fun st v _ h2 => absurd h2 hch
    · exact h hj

theorem notifyAll_se (C : Cfg) (l : List Nat) (j : Nat) : ∀ {s : Sys}, Base s → l.Nodup →
    (∀ i ∈ l, (s.obj i).active = true ∧ ((s.obj i).thr ≠ none → (s.obj i).tol ≠ none)) →
    (j ∉ l → SE s j) → SE (notifyAll C s l) j := by
  induction l with
  | nil => intro s _ _ _ h; exact h (by simp)
  | cons i l ih =>
    intro s B hn hl h
    obtain ⟨hni, hn⟩ := List.nodup_cons.1 hn
    obtain ⟨h1, h2⟩ := hl i (by simp)
    have V := valueChanged_vc C B i h1 h2
    refine ih V.base hn (fun k hk => by
      rw [V.other k (fun e => hni (e ▸ hk))]; exact hl k (List.mem_cons_of_mem _ hk)) (fun hj => ?_)
    refine valueChanged_se C B i h1 j (fun hji => h ?_)
    simp [hj, hji]

theorem give_se (C : Cfg) {s : Sys} (I : Inv C s) (st : Nat) (g : Given) (j : Nat) (h : SE s j) : SE (give C s st g) j := by
  have mem : (s.obj j).active = true → (s.obj j).entry = some st → j ∈ (s.entry st).lookups := by
    intro h1 h2
    obtain ⟨_, he, hr, _⟩ := (I.ok j).act h1
    exact (I.reg.mem st j).2 ⟨by rw [hr, ← he, h2]; rfl, h2⟩
  have tell : ∀ v : Option Int, SE (notifyAll C (s.setEntry st { s.entry st with value := some v, stamp := s.cycle })
      (s.entry st).lookups) j := by
    intro v
    have B := base_setValue I.toBase st { s.entry st with value := some v, stamp := s.cycle } rfl (by simp)
    refine notifyAll_se C _ j B (I.reg.nodup st) (fun k hk => ⟨(I.toBase.mem_active hk).1, I.tol k⟩) (fun hj => ?_)
    intro st' w h1 h2 h3 h4 h5
    have hne : st' ≠ st := fun he => hj (mem h1 (he ▸ h3))
    simp only [setEntry_entry, if_neg hne] at h5
    exact h st' w h1 h2 h3 h4 h5
  have quiet : SE (s.setEntry st { s.entry st with value := some none, stamp := s.cycle }) j := by
    intro st' w h1 h2 h3 h4 h5
    by_cases hne : st' = st
    · simp [setEntry_entry, hne] at h5
    · simp only [setEntry_entry, if_neg hne] at h5
      exact h st' w h1 h2 h3 h4 h5
  unfold give
  dsimp only
  cases g with
  | nothing => exact h
  | known v =>
    dsimp only
    split
    · exact h
    · exact tell (some v)
  | unknown =>
    dsimp only
    split
    · exact tell none
    · exact quiet
  | clear =>
    dsimp only
    split
    · exact h
    · split
      · exact tell none
      · exact quiet

theorem ensureRegistered_se (C : Cfg) {s : Sys} {i st : Nat} (g : Given) (A : Almost C s i)
    (hr : (s.obj i).registered = false) (ht : (s.obj i).thr = none) (he : (s.obj i).entry = some st)
    (O : Ok { s.obj i with registered := true }) (j : Nat) (hj : j ≠ i) (h : SE s j) :
    SE (ensureRegistered C s i st g) j := by
  have T1 : SE ((s.setObj i { s.obj i with registered := true }).setEntry st
      { s.entry st with lookups := (s.entry st).lookups ++ [i] }) j := by
    refine h.of (by simp [hj]) (fun t _ => ?_)
    simp only [setEntry_entry]; split
    · next h => rw [h]
    · rfl
  unfold ensureRegistered
  simp only [hr, Bool.false_eq_true, if_false]
  split
  · next hq =>
    refine give_se C ?_ st g j T1
    have R := ensureRegistered_rg C (st := st) .nothing A hr ht he O
    have e : ensureRegistered C s i st .nothing = { (s.setObj i { s.obj i with registered := true }).setEntry st
      { s.entry st with lookups := (s.entry st).lookups ++ [i] } with queries := (st, s.cycle) :: s.queries } := by
      unfold ensureRegistered
      simp only [hr, Bool.false_eq_true, if_false, hq, if_true]
      rfl
    have I := R.inv
    rw [e] at I
    exact I
  · exact T1

theorem Calm.se {s s' : Sys} {i j : Nat} (h : Calm s s' i) (hj : j ≠ i) (H : SE s j) : SE s' j :=
  H.of (h.other j hj) (fun st _ => h.value st)

theorem hci_se (C : Cfg) {s : Sys} {i : Nat} (I : Inv C s) (n : Option Nat) (g : Given)
    (ha : (s.obj i).active = true) (hc : (s.obj i).const = false) (hne : n ≠ (s.obj i).name) (j : Nat) (hj : j ≠ i)
    (h : SE s j) : SE (handleChangeInternal C (s.setObj i { s.obj i with name := n }) i g).1 j := by
  have O := I.ok i
  obtain ⟨h1, h2, h3, h4⟩ := O.act ha
  have A := I.almost i
  have T0 : ∀ o : Obj, SE (s.setObj i o) j := fun o => (calm_setObj s i o).se hj h
  cases n with
  | none =>
    obtain ⟨st', hst'⟩ := Option.ne_none_iff_exists'.1 (Ne.symm hne)
    rw [hst'] at h1 h2 h3
    have e : (s.setObj i { s.obj i with name := none }).obj i = { s.obj i with name := none } := by simp
    have h1 : (s.obj i).stateKnown = true := h1
    rw [hci_none C g (by rw [e]), e, setObj_setObj]
    simp only [h1, if_true]
    have A0 : Almost C (s.setObj i { s.obj i with name := none, stateKnown := false }) i := A.setObj _ (.inr ⟨rfl, rfl⟩)
    obtain ⟨k1, _, _⟩ := invalidate_spec A0 (by simp [h2]) (by simpa using O.pair) (by simpa using O.plain)
    exact k1.se hj (T0 { s.obj i with name := none, stateKnown := false })
  | some st =>
    have reg : ∀ s1 : Sys, Almost C s1 i →
        s1.obj i = { s.obj i with name := some st, stateKnown := true, registered := false, thr := none, cached := none, cachedState := st, entry := some st } →
        SE s1 j → SE (ensureRegistered C s1 i st g) j := by
      intro s1 A1 hi1 T1
      refine ensureRegistered_se C g A1 (by rw [hi1]) (by rw [hi1]) (by rw [hi1]) ?_ j hj T1
      rw [hi1]
      refine ⟨fun _ => ⟨rfl, rfl, rfl, fun _ h => by simpa using h⟩, fun h => ?_, fun h => ?_, fun _ => rfl, fun _ => rfl, fun _ h => by simp at h⟩
      · exact absurd (ha.symm.trans h) (by decide)
      · exact absurd (hc.symm.trans h) (by decide)
    have e : (s.setObj i { s.obj i with name := some st }).obj i = { s.obj i with name := some st } := by simp
    cases hn : (s.obj i).name with
    | none =>
      rw [hn] at h1 h2 h3
      have ht : (s.obj i).thr = none := by
        cases ht : (s.obj i).thr with
        | none => rfl
        | some th => have := (O.shape th ht).1; rw [h2] at this; simp at this
      have h1 : (s.obj i).stateKnown = false := h1
      rw [hci_some C (b := false) (st := st) g (by rw [e]) (by rw [e]; simp [h1]) rfl, e, setObj_setObj]
      simp only [Bool.false_eq_true, if_false, setObj_obj, if_true, setObj_setObj]
      refine reg _ (A.setObj _ (.inl ⟨h3, h3⟩)) ?_ ((calm_setObj s i _).se hj h)
      rw [setObj_obj, if_pos rfl, ← O.pair ht, ← ht, ← show (s.obj i).registered = false from h3]
    | some st' =>
      rw [hn] at h1 h2 h3
      have hd : st ≠ st' := fun h => hne (by rw [hn, h])
      obtain ⟨s0, hs0⟩ : ∃ s0, s0 = s.setObj i { s.obj i with name := some st, stateKnown := true } := ⟨_, rfl⟩
      have A0 : Almost C s0 i := by rw [hs0]; exact A.setObj _ (.inr ⟨rfl, rfl⟩)
      have hi0 : s0.obj i = { s.obj i with name := some st, stateKnown := true } := by rw [hs0]; simp
      have he0 : (s0.obj i).registered = true → (s0.obj i).entry ≠ none := by rw [hi0]; simp [h2]
      obtain ⟨k1, k2, k3⟩ := invalidate_spec A0 he0 (by rw [hi0]; exact O.pair) (by rw [hi0]; exact O.plain)
      have h1 : (s.obj i).stateKnown = true := h1
      rw [hci_some C (b := true) (st := st) (s1 := invalidateOldState s0 i) g (by rw [e])
        (by rw [e]; simp [h1, h4 st' hn, hd]) (by rw [if_pos rfl, e, setObj_setObj, hs0])]
      refine reg _ (k2.setObj _ (.inl ⟨by rw [k3], by rw [k3]⟩)) (by rw [setObj_obj, if_pos rfl, k3, hi0]) ?_
      refine (calm_setObj _ i _).se hj (k1.se hj ?_)
      rw [hs0]; exact (calm_setObj s i _).se hj h

theorem handleChange_se (C : Cfg) {s : Sys} {i : Nat} (g : Given) (B : Base (handleChangeInternal C s i g).1)
    (ha : ((handleChangeInternal C s i g).1.obj i).active = true) (j : Nat)
    (T : j ≠ i → SE (handleChangeInternal C s i g).1 j) : SE (handleChange C s i g) j := by
  unfold handleChange
  dsimp only
  by_cases hch : ((handleChangeInternal C s i g).1.obj i).onChange = true
  · simp only [if_pos hch]
    split
    · exact publish_se i (updateInternal_se C B i _ ha hch j T)
    · exact updateInternal_se C B i _ ha hch j T
  · have T' : SE (handleChangeInternal C s i g).1 j := by
      by_cases hj : j = i
      · subst hj; exact fun st v _ h2 => absurd h2 hch
      · exact T hj
    simp only [if_neg hch]
    split
    · exact publish_se i T'
    · exact T'

/-- `activate` up to `updateInternal`. -/
theorem activate_split (C : Cfg) {s : Sys} {i : Nat} (I : Inv C s) (g : Given) (ha : (s.obj i).active = false) :
    ∃ o s1, activate C s i g = (if o.onChange = true then
        (if (updateInternal C s1 i true).1.isKnown i = true then (updateInternal C s1 i true).1.publish i
          else (updateInternal C s1 i true).1) else s1) ∧
      Inv C s1 ∧ (s1.obj i).active = true ∧ (s1.obj i).onChange = o.onChange ∧ o.thr = none ∧
      (s1 = s.setObj i o ∨ ∃ st, s1 = ensureRegistered C (s.setObj i o) i st g ∧ Almost C (s.setObj i o) i ∧
        o.registered = false ∧ o.entry = some st ∧ Ok { o with registered := true } ∧ (s.obj i).name = some st) := by
  have O := I.ok i
  obtain ⟨hreg, hthr, hent, hcs⟩ := O.inact ha
  -- the lookup once activated
  have ho : activated (s.obj i) = { s.obj i with
      active := true, stateKnown := (s.obj i).name.isSome, cachedState := (s.obj i).name.getD (s.obj i).cachedState,
      entry := (s.obj i).name } := by
    unfold activated
    dsimp only
    by_cases hc : (s.obj i).const = true
    · obtain ⟨hk, hn⟩ := O.const hc
      rw [if_pos hc]
      by_cases he : (s.obj i).entry = none
      · rw [if_pos ⟨he, hk⟩]
        simp [hk, hn]
      · rw [if_neg (fun h => he h.1)]
        obtain ⟨st, hst⟩ := Option.ne_none_iff_exists'.1 he
        simp only [hk, hst, hcs st hst, Option.isSome_some, Option.getD_some, hn]
    · have hc' : (s.obj i).const = false := by simpa using hc
      rw [if_neg hc]
      have he := hent hc'
      cases hn : (s.obj i).name with
      | none => simp [he]
      | some st => simp [he]
  generalize hO : activated (s.obj i) = o at ho
  have hthr' : o.thr = none := by rw [ho]; exact hthr
  have A0 : Almost C (s.setObj i o) i := (I.almost i).setObj _ (.inl ⟨by rw [ho]; exact hreg, hreg⟩)
  have hi0 : (s.setObj i o).obj i = o := by simp
  have hok : Ok { o with registered := (s.obj i).name.isSome } := by
    rw [ho]
    refine ⟨fun _ => ⟨rfl, rfl, rfl, fun st h => ?_⟩, fun h => by simp at h, fun h => ?_, O.plain, O.pair, fun th h => ?_⟩
    · simp only at h ⊢; rw [h]; rfl
    · obtain ⟨hk, hn⟩ := O.const h
      simp only [hn]; simp
    · simp only at h; rw [hthr] at h; simp at h
  cases hn : (s.obj i).name with
  | none =>
    have he : o.entry = none := by rw [ho]; exact hn
    rw [hn] at hok
    have hr0 : ({ o with registered := false } : Obj) = o := by rw [ho]; simp only [hreg]
    have hok : Ok o := by rw [← hr0]; exact hok
    refine ⟨o, s.setObj i o, ?_, A0.inv (by rw [hi0]; exact hok) (by rw [hi0]; exact hthr'), by rw [hi0, ho], by rw [hi0], hthr', .inl rfl⟩
    unfold activate
    simp only [hO, he]
  | some st =>
    have he : o.entry = some st := by rw [ho]; exact hn
    rw [hn] at hok
    have hr0 : o.registered = false := by rw [ho]; exact hreg
    have R := ensureRegistered_rg C (st := st) g A0 (by rw [hi0]; exact hr0) (by rw [hi0]; exact hthr') (by rw [hi0]; exact he) (by rw [hi0]; exact hok)
    obtain ⟨th, c, hs⟩ := R.same
    rw [hi0] at hs
    refine ⟨o, ensureRegistered C (s.setObj i o) i st g, ?_, R.inv, by rw [hs, ho], by rw [hs], hthr', .inr ⟨st, rfl, A0, hr0, he, hok, rfl⟩⟩
    unfold activate
    simp only [hO, he]

theorem step_se (C : Cfg) {s : Sys} (I : Inv C s) (e : Ev) (j : Nat) (T : SE s j) : SE (step C s e) j := by
  cases e with
  | activate i g =>
    simp only [step]
    split
    · exact T
    · next h =>
      have ha : (s.obj i).active = false := by simpa using h
      obtain ⟨o, s1, he, I1, ha1, hc1, hthr, hs1⟩ := activate_split C I g ha
      have T1 : j ≠ i → SE s1 j := by
        intro hj
        have T0 : SE (s.setObj i o) j := (calm_setObj s i o).se hj T
        rcases hs1 with rfl | ⟨st, rfl, A0, h1, h2, h3⟩
        · exact T0
        · exact ensureRegistered_se C (st := st) g A0 (by simpa using h1) (by simpa using hthr) (by simpa using h2)
            (by simpa using h3.1) j hj T0
      rw [he]
      split
      · next hch =>
        have T2 := updateInternal_se C I1.toBase i true ha1 (by rw [hc1]; exact hch) j T1
        split
        · exact publish_se i T2
        · exact T2
      · next hch =>
        by_cases hj : j = i
        · subst hj; intro st v _ h2; rw [hc1] at h2; exact absurd h2 hch
        · exact T1 hj
  | deactivate i =>
    simp only [step]
    split
    · next ha =>
      obtain ⟨_, h2, h3, _⟩ := deactivate_spec C I ha
      by_cases hj : j = i
      · subst hj; intro st v h1; rw [h3] at h1; simp at h1
      · exact h2.se hj T
    · exact T
  | rename i n g =>
    simp only [step]
    split
    · exact T
    · next hc =>
      have hc : (s.obj i).const = false := by simpa using hc
      simp only [setObj_obj, if_true]
      split
      · next ha =>
        by_cases hn : n = (s.obj i).name
        · have e0 : s.setObj i { s.obj i with name := n } = s := by rw [hn]; exact setObj_self s i
          have e : handleChangeInternal C s i g = (s, false) := hci_same C g (I.ok i) ha
          rw [e0]
          exact handleChange_se C g (by rw [e]; exact I.toBase) (by rw [e]; exact ha) j (by rw [e]; exact fun _ => T)
        · obtain ⟨s1, e, H⟩ := hci_changed C I n g ha hc hn
          have T1 := fun hj => hci_se C I n g ha hc hn j hj T
          exact handleChange_se C g (by rw [e]; exact H.inv.toBase) (by rw [e]; exact H.active) j T1
      · next ha =>
        by_cases hj : j = i
        · subst hj; intro st v h1; simp at h1; exact absurd h1 ha
        · exact (calm_setObj s i _).se hj T
  | retol i t =>
    simp only [step, setObj_obj, if_true]
    split
    · next h =>
      obtain ⟨s0, hs0⟩ : ∃ s0, s0 = s.setObj i { s.obj i with tol := t } := ⟨_, rfl⟩
      have hi0 : s0.obj i = { s.obj i with tol := t } := by rw [hs0]; simp
      have ho0 : ∀ j, j ≠ i → s0.obj j = s.obj j := fun j hj => by rw [hs0]; simp [hj]
      have K0 : Keep s s0 := by rw [hs0]; exact keep_setObj _ _ _
      have O := I.ok i
      have B0 : Base s0 := by
        refine ⟨by rw [hs0]; exact I.crash, fun j => ?_, ⟨fun st => ?_, fun st j => ?_⟩, fun j st => ?_⟩
        · by_cases hj : j = i
          · rw [hj, hi0]; exact ⟨O.act, O.inact, O.const, O.plain, O.pair, O.shape⟩
          · rw [ho0 j hj]; exact I.ok j
        · rw [K0.lookups]; exact I.reg.nodup st
        · rw [K0.lookups, I.reg.mem st j]
          by_cases hj : j = i
          · rw [hj, hi0]
          · rw [ho0 j hj]
        · rw [K0.value]
          by_cases hj : j = i
          · rw [hj, hi0]; exact I.val i st
          · rw [ho0 j hj]; exact I.val j st
      have e : handleChangeInternal C s0 i .nothing = (s0, false) := hci_same C .nothing (B0.ok i) (by rw [hi0]; exact h.1)
      rw [← hs0]
      refine handleChange_se C .nothing (by rw [e]; exact B0) (by rw [e, hi0]; exact h.1) j (fun hj => ?_)
      rw [e]
      exact T.of (ho0 j hj) (fun st _ => K0.value st)
    · next h =>
      by_cases hj : j = i
      · subst hj; intro st v h1 h2; simp at h1 h2; exact absurd ⟨h1, h2⟩ h
      · exact (calm_setObj s i _).se hj T
  | give st g => exact give_se C I st g j T
  | tick => exact T

end Verif.Lookup
