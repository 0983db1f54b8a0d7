import Verif.Lookup.Settled

/-! The thresholds told to the interface, and those of the lookups. -/
namespace Verif.Lookup

theorem combine_spec (l : List (Option (Int × Int))) : ∀ acc,
    (∀ h w, combine l acc = some (h, w) →
      (∀ a b, some (a, b) ∈ l → h ≤ a ∧ b ≤ w) ∧ ∀ a b, acc = some (a, b) → h ≤ a ∧ b ≤ w) ∧
    (combine l acc = none → acc = none ∧ ∀ p, some p ∉ l) := by
  induction l with
  | nil =>
    intro acc
    refine ⟨fun h w e => ⟨by simp, fun a b e' => ?_⟩, fun e => ⟨e, by simp⟩⟩
    simp only [combine] at e
    rw [e'] at e; cases e; omega
  | cons x l ih =>
    intro acc
    cases x with
    | none =>
      obtain ⟨h1, h2⟩ := ih acc
      refine ⟨fun h w e => ?_, fun e => ?_⟩
      · obtain ⟨h3, h4⟩ := h1 h w e
        refine ⟨fun a b hm => h3 a b ?_, h4⟩
        simpa using hm
      · obtain ⟨h3, h4⟩ := h2 e
        refine ⟨h3, fun p hm => h4 p ?_⟩
        simpa using hm
    | some p =>
      obtain ⟨hi, lo⟩ := p
      cases acc with
      | none =>
        obtain ⟨h1, h2⟩ := ih (some (hi, lo))
        refine ⟨fun h w e => ?_, fun e => ?_⟩
        · obtain ⟨h3, h4⟩ := h1 h w e
          refine ⟨fun a b hm => ?_, by simp⟩
          rcases List.mem_cons.1 hm with h' | h'
          · cases h'; exact h4 _ _ rfl
          · exact h3 a b h'
        · exact absurd (h2 e).1 (by simp)
      | some q =>
        obtain ⟨h0, w0⟩ := q
        obtain ⟨h1, h2⟩ := ih (some (if hi < h0 then hi else h0, if lo > w0 then lo else w0))
        refine ⟨fun h w e => ?_, fun e => ?_⟩
        · obtain ⟨h3, h4⟩ := h1 h w e
          have := h4 _ _ rfl
          have hh : h ≤ hi ∧ h ≤ h0 := by
            have := this.1; split at this <;> omega
          have hw : lo ≤ w ∧ w0 ≤ w := by
            have := this.2; split at this <;> omega
          refine ⟨fun a b hm => ?_, fun a b e' => ?_⟩
          · rcases List.mem_cons.1 hm with h' | h'
            · cases h'; exact ⟨hh.1, hw.1⟩
            · exact h3 a b h'
          · cases e'; exact ⟨hh.2, hw.2⟩
        · exact absurd (h2 e).1 (by simp)

/-- Lookup `j`'s thresholds enclose those the interface was told. -/
def TA (s : Sys) (j : Nat) : Prop :=
  ∀ th st, (s.obj j).thr = some th → (s.obj j).entry = some st →
    (s.entry st).thr = true ∧ ∃ hi lo, s.iface st = some (hi, lo) ∧ hi ≤ th.high ∧ th.low ≤ lo

theorem TA.of {s s' : Sys} {j : Nat} (h : TA s j) (ho : s'.obj j = s.obj j)
    (he : ∀ st, (s.obj j).entry = some st → (s'.entry st).thr = (s.entry st).thr ∧ s'.iface st = s.iface st) : TA s' j := by
  intro th st h1 h2
  rw [ho] at h1 h2
  obtain ⟨e1, e2⟩ := he st h2
  rw [e1, e2]; exact h th st h1 h2

theorem ta_of_none {s : Sys} {j : Nat} (h : (s.obj j).thr = none) : TA s j := by
  intro th st h1; rw [h] at h1; simp at h1

theorem updateThresholds_ta (s : Sys) (st j : Nat)
    (hm : ∀ th, (s.obj j).thr = some th → (s.obj j).entry = some st →
      j ∈ (s.entry st).lookups ∧ (s.obj j).active = true ∧ (s.obj j).onChange = true)
    (ho : (s.obj j).entry ≠ some st → TA s j) : TA (updateThresholds s st) j := by
  intro th st' h1 h2
  rw [updateThresholds_obj] at h1 h2
  by_cases hst : st' = st
  · subst hst
    obtain ⟨h3, h4, h5⟩ := hm th h1 h2
    have hin : some (th.high, th.low) ∈ (s.entry st').lookups.map (fun i => getThresholds (s.obj i)) := by
      refine List.mem_map.2 ⟨j, h3, ?_⟩
      unfold getThresholds
      rw [h4, h5, h1]; rfl
    unfold updateThresholds
    dsimp only
    obtain ⟨c1, c2⟩ := combine_spec ((s.entry st').lookups.map (fun i => getThresholds (s.obj i))) none
    split
    · next hl hc =>
      obtain ⟨h, w⟩ := hl
      refine ⟨by simp [Sys.setEntry], h, w, by simp, ?_⟩
      exact (c1 h w hc).1 _ _ hin
    · next hc => exact absurd hin ((c2 hc).2 _)
  · have T := ho (by rw [h2]; simpa using hst) th st' h1 h2
    have e : ((updateThresholds s st).entry st').thr = (s.entry st').thr ∧ (updateThresholds s st).iface st' = s.iface st' := by
      unfold updateThresholds
      dsimp only
      split
      · simp [Sys.setEntry, hst]
      · split
        · simp [Sys.setEntry, hst]
        · exact ⟨rfl, rfl⟩
    rw [e.1, e.2]; exact T

/-- The tolerance has not shrunk since the thresholds were set. -/
def Wide (o : Obj) : Prop :=
  ∀ th t b, o.thr = some th → o.tol = some t → o.cached = some (some b) → th.tol ≤ absTol t

theorem Inv.wide {C : Cfg} {s : Sys} (I : Inv C s) (i : Nat) : Wide (s.obj i) := by
  intro th t b h1 h2 h3
  obtain ⟨⟨t', ht', hab⟩, _⟩ := I.fits i th h1 _ h3
  rw [h2] at ht'; cases ht'
  rw [hab rfl]; omega

theorem Base.thr_on {s : Sys} (B : Base s) {j st : Nat} {th : Thr} (h1 : (s.obj j).thr = some th) (h2 : (s.obj j).entry = some st) :
    j ∈ (s.entry st).lookups ∧ (s.obj j).active = true ∧ (s.obj j).onChange = true := by
  obtain ⟨ha, st', he, hm⟩ := B.thr_active j (by rw [h1]; simp)
  rw [h2] at he; cases he
  refine ⟨hm, ha, ?_⟩
  cases hc : (s.obj j).onChange with
  | true => rfl
  | false => rw [(B.ok j).plain hc] at h1; simp at h1

theorem updateInternal_ta (C : Cfg) {s : Sys} (B : Base s) (i : Nat) (b : Bool) (ha : (s.obj i).active = true)
    (hch : (s.obj i).onChange = true) (hw : Wide (s.obj i)) (T : ∀ j, TA s j) : ∀ j, TA (updateInternal C s i b).1 j := by
  have O := B.ok i
  -- after a change of the thresholds of `i` that is followed by `updateThresholds`
  have upd : ∀ (o : Obj) (st : Nat), (s.obj i).entry = some st → (o.entry = some st ∧ o.active = true ∧ o.onChange = true) →
      ∀ j, TA (updateThresholds (s.setObj i o) st) j := by
    intro o st hst ho j
    refine updateThresholds_ta _ st j (fun th h1 h2 => ?_) (fun h => ?_)
    · rw [setObj_entry]
      by_cases hj : j = i
      · subst hj
        rw [setObj_obj, if_pos rfl]
        refine ⟨(B.reg.mem st j).2 ⟨?_, hst⟩, ho.2⟩
        obtain ⟨_, he, hr, _⟩ := O.act ha
        rw [hr, ← he, hst]; rfl
      · rw [setObj_obj, if_neg hj] at h1 h2 ⊢
        exact B.thr_on h1 h2
    · by_cases hj : j = i
      · subst hj; rw [setObj_obj, if_pos rfl] at h; exact absurd ho.1 h
      · exact (T j).of (by rw [setObj_obj, if_neg hj]) (fun _ _ => ⟨rfl, rfl⟩)
  cases hthr : (s.obj i).thr with
  | some th =>
    obtain ⟨hent, c, hc, hwk, hband⟩ := O.shape th hthr
    obtain ⟨st, hst⟩ := Option.isSome_iff_exists.1 hent
    obtain ⟨val, hval⟩ := Option.ne_none_iff_exists'.1 (B.val i st (by rw [hthr]; simp) hst)
    cases htol : (s.obj i).tol with
    | some t =>
      generalize hth0 : (if toleranceChanged th t = true then setThresholds th ((s.obj i).cached.getD none) t else th) = th0
      rw [updateInternal_known C s i b hthr hst htol hval hth0]
      split
      · exact upd _ st hst ⟨hst, ha, hch⟩
      · intro j
        by_cases hj : j = i
        · subst hj
          intro th' st' h1 h2
          simp only [setObj_obj, if_true] at h1 h2
          rw [setObj_entry, setObj_iface]
          obtain ⟨h3, hi, lo, h4, h5, h6⟩ := T j th st' hthr h2
          refine ⟨h3, hi, lo, h4, ?_⟩
          have hth : th.high ≤ th'.high ∧ th'.low ≤ th.low := by
            rw [← Option.some.inj h1, ← hth0, hc]
            split
            · simp only [Option.getD_some]
              cases c with
              | none => exact ⟨Int.le_refl _, Int.le_refl _⟩
              | some x =>
                have := hw th t x hthr htol hc
                obtain ⟨hl, hh⟩ := hband x rfl
                show th.high ≤ x + absTol t ∧ x - absTol t ≤ th.low
                omega
            · exact ⟨Int.le_refl _, Int.le_refl _⟩
          omega
        · exact (T j).of (by simp [hj]) (fun _ _ => ⟨rfl, rfl⟩)
    | none =>
      rw [updateInternal_lost C s i b hthr hst htol]
      exact upd _ st hst ⟨hst, ha, hch⟩
  | none =>
    by_cases hex : ∃ st t v, (s.obj i).entry = some st ∧ (s.obj i).tol = some t ∧ (s.entry st).value = some (some v)
    · obtain ⟨st, t, v, hst, htol, hv⟩ := hex
      rw [updateInternal_new C s i b hthr hst htol hv]
      exact upd _ st hst ⟨hst, ha, hch⟩
    · rw [updateInternal_none C s i b hthr hex]; exact T

theorem publish_ta {s : Sys} (i : Nat) (T : ∀ j, TA s j) : ∀ j, TA (s.publish i) j := by
  intro j
  unfold Sys.publish
  split
  · exact T j
  · exact T j

theorem valueChanged_ta (C : Cfg) {s : Sys} (B : Base s) (i : Nat) (ha : (s.obj i).active = true)
    (hw : Wide (s.obj i)) (T : ∀ j, TA s j) : ∀ j, TA (valueChanged C s i) j := by
  unfold valueChanged
  by_cases hch : (s.obj i).onChange = true
  · rw [if_pos hch, if_pos ha]
    dsimp only
    split
    · exact publish_ta i (updateInternal_ta C B i true ha hch hw T)
    · exact updateInternal_ta C B i true ha hch hw T
  · rw [if_neg hch]; exact publish_ta i T

theorem notifyAll_ta (C : Cfg) (l : List Nat) : ∀ {s : Sys}, Base s → l.Nodup →
    (∀ i ∈ l, (s.obj i).active = true ∧ ((s.obj i).thr ≠ none → (s.obj i).tol ≠ none) ∧ Wide (s.obj i)) →
    (∀ j, TA s j) → ∀ j, TA (notifyAll C s l) j := by
  induction l with
  | nil => intro s _ _ _ T; exact T
  | cons i l ih =>
    intro s B hn hl T
    obtain ⟨hni, hn⟩ := List.nodup_cons.1 hn
    obtain ⟨h1, h2, h3⟩ := hl i (by simp)
    have V := valueChanged_vc C B i h1 h2
    exact ih V.base hn (fun j hj => by
      rw [V.other j (fun e => hni (e ▸ hj))]; exact hl j (List.mem_cons_of_mem _ hj)) (valueChanged_ta C B i h1 h3 T)

theorem give_ta (C : Cfg) {s : Sys} (I : Inv C s) (st : Nat) (g : Given) (T : ∀ j, TA s j) : ∀ j, TA (give C s st g) j := by
  have set : ∀ e : Entry, e.thr = (s.entry st).thr → ∀ j, TA (s.setEntry st e) j := by
    intro e he j
    refine (T j).of rfl (fun t _ => ⟨?_, rfl⟩)
    simp only [setEntry_entry]; split
    · next h => rw [h, he]
    · rfl
  have tell : ∀ v : Option Int, ∀ j, TA (notifyAll C (s.setEntry st { s.entry st with value := some v, stamp := s.cycle })
      (s.entry st).lookups) j := by
    intro v
    have B := base_setValue I.toBase st { s.entry st with value := some v, stamp := s.cycle } rfl (by simp)
    exact notifyAll_ta C _ B (I.reg.nodup st) (fun k hk => ⟨(I.toBase.mem_active hk).1, I.tol k, I.wide k⟩) (set _ rfl)
  unfold give
  dsimp only
  cases g with
  | nothing => exact T
  | known v =>
    dsimp only
    split
    · exact T
    · exact tell (some v)
  | unknown =>
    dsimp only
    split
    · exact tell none
    · exact set _ rfl
  | clear =>
    dsimp only
    split
    · exact T
    · split
      · exact tell none
      · exact set _ rfl

theorem setObj_ta {s : Sys} {i : Nat} {o : Obj} (ho : o.thr = none ∨ (o.thr = (s.obj i).thr ∧ o.entry = (s.obj i).entry))
    (T : ∀ j, j ≠ i ∨ o.thr ≠ none → TA s j) : ∀ j, TA (s.setObj i o) j := by
  intro j
  by_cases hj : j = i
  · subst hj
    rcases ho with h | ⟨h1, h2⟩
    · exact ta_of_none (by simp [h])
    · by_cases hn : o.thr = none
      · exact ta_of_none (by simp [hn])
      · intro th st h3 h4
        simp only [setObj_obj, if_true] at h3 h4
        rw [h1] at h3; rw [h2] at h4
        exact T j (.inr hn) th st h3 h4
  · exact (T j (.inl hj)).of (by simp [hj]) (fun _ _ => ⟨rfl, rfl⟩)

theorem unregister_ta {C : Cfg} {s : Sys} {i : Nat} (A : Almost C s i)
    (he : (s.obj i).registered = true → (s.obj i).entry ≠ none) (T : ∀ j, j ≠ i → TA s j) :
    ∀ j, j ≠ i → TA (unregister s i) j := by
  intro j hj
  by_cases hr : (s.obj i).registered = true
  · obtain ⟨st, hst⟩ := Option.ne_none_iff_exists'.1 (he hr)
    have hm : i ∈ (s.entry st).lookups := (A.reg.mem st i).2 ⟨hr, hst⟩
    have A' := (unregister_spec A he).2.1
    -- what a lookup with thresholds on the state looks like
    have on : ∀ th, (s.obj j).thr = some th → (s.obj j).entry = some st →
        j ∈ (s.entry st).lookups ∧ (s.obj j).active = true ∧ (s.obj j).onChange = true := by
      intro th h1 h2
      have O := A.ok j hj
      have ha : (s.obj j).active = true := by
        cases ha : (s.obj j).active with
        | true => rfl
        | false => rw [(O.inact ha).2.1] at h1; simp at h1
      refine ⟨(A.reg.mem st j).2 ⟨?_, h2⟩, ha, ?_⟩
      · obtain ⟨_, h3, h4, _⟩ := O.act ha
        rw [h4, ← h3, h2]; rfl
      · cases hc : (s.obj j).onChange with
        | true => rfl
        | false => rw [O.plain hc] at h1; simp at h1
    unfold unregister
    simp only [hr, hst, setObj_entry, List.ne_nil_of_mem hm, Bool.not_true, Bool.false_eq_true, if_false]
    have other : ∀ e : Entry, (e.thr = (s.entry st).thr ∨ ((s.obj j).thr ≠ none → (s.obj j).entry ≠ some st)) → ∀ o,
        TA ((s.setObj i o).setEntry st e) j := by
      intro e h o th st' h1 h2
      simp only [setEntry_obj, setObj_obj, if_neg hj] at h1 h2
      simp only [setEntry_entry, setEntry_iface, setObj_iface]
      obtain ⟨k1, k2⟩ := T j hj th st' h1 h2
      refine ⟨?_, k2⟩
      split
      · next hs =>
        subst hs
        rcases h with h | h
        · rw [h]; exact k1
        · exact absurd h2 (h (by rw [h1]; simp))
      · exact k1
    split
    · next hnil =>
      refine other _ (.inr fun hne h2 => ?_) _
      obtain ⟨th, hth⟩ := Option.ne_none_iff_exists'.1 hne
      have := (List.mem_erase_of_ne hj).2 (on th hth h2).1
      rw [hnil] at this; simp at this
    · split
      · refine updateThresholds_ta _ st j (fun th h1 h2 => ?_) (fun h => ?_)
        · simp only [setEntry_obj, setObj_obj, if_neg hj] at h1 h2 ⊢
          simp only [setEntry_entry, if_true]
          obtain ⟨k1, k2, k3⟩ := on th h1 h2
          exact ⟨(List.mem_erase_of_ne hj).2 k1, k2, k3⟩
        · exact other { s.entry st with lookups := (s.entry st).lookups.erase i } (.inl rfl) _
      · exact other { s.entry st with lookups := (s.entry st).lookups.erase i } (.inl rfl) _
  · have e : unregister s i = s := by unfold unregister; simp [hr]
    rw [e]; exact T j hj

theorem invalidate_ta {C : Cfg} {s : Sys} {i : Nat} (A : Almost C s i)
    (he : (s.obj i).registered = true → (s.obj i).entry ≠ none)
    (hpl : (s.obj i).onChange = false → (s.obj i).thr = none) (T : ∀ j, j ≠ i → TA s j) :
    ∀ j, TA (invalidateOldState s i) j := by
  obtain ⟨_, _, h3⟩ := unregister_spec A he
  unfold invalidateOldState
  dsimp only
  rw [h3]
  have hn : ∀ o : Obj, o = { s.obj i with registered := false, entry := none } →
      (if (o.onChange && o.thr.isSome) = true then { o with thr := none, cached := none } else o).thr = none := by
    rintro o rfl
    cases ht : (s.obj i).thr with
    | none => simp [ht]
    | some th =>
      cases hc : (s.obj i).onChange with
      | true => simp
      | false => rw [hpl hc] at ht; simp at ht
  refine setObj_ta (.inl (hn _ rfl)) (fun j hj => ?_)
  rcases hj with hj | hj
  · exact unregister_ta A he T j hj
  · exact absurd (hn _ rfl) hj

theorem ensureRegistered_ta (C : Cfg) {s : Sys} {i st : Nat} (g : Given) (A : Almost C s i)
    (hr : (s.obj i).registered = false) (ht : (s.obj i).thr = none) (he : (s.obj i).entry = some st)
    (O : Ok { s.obj i with registered := true }) (T : ∀ j, TA s j) : ∀ j, TA (ensureRegistered C s i st g) j := by
  -- if nothing is asked, the intermediate system is the result
  have T1 : ∀ j, TA ((s.setObj i { s.obj i with registered := true }).setEntry st
      { s.entry st with lookups := (s.entry st).lookups ++ [i] }) j := by
    intro j
    have := setObj_ta (s := s) (i := i) (o := { s.obj i with registered := true }) (.inl ht) (fun j _ => T j) j
    refine this.of rfl (fun t _ => ⟨?_, rfl⟩)
    simp only [setEntry_entry]; split
    · next h => rw [h]; rfl
    · rfl
  unfold ensureRegistered
  simp only [hr, Bool.false_eq_true, if_false]
  split
  · next hq =>
    refine give_ta C ?_ st g T1
    -- the invariant at that point, as in `ensureRegistered_rg`
    have R := ensureRegistered_rg C (st := st) .nothing A hr ht he O
    have e : ensureRegistered C s i st .nothing = { (s.setObj i { s.obj i with registered := true }).setEntry st
      { s.entry st with lookups := (s.entry st).lookups ++ [i] } with queries := (st, s.cycle) :: s.queries } := by
      unfold ensureRegistered
      simp only [hr, Bool.false_eq_true, if_false, hq, if_true]
      rfl
    have I := R.inv
    rw [e] at I
    exact I
  · exact T1

theorem hci_ta (C : Cfg) {s : Sys} {i : Nat} (I : Inv C s) (n : Option Nat) (g : Given)
    (ha : (s.obj i).active = true) (hc : (s.obj i).const = false) (hne : n ≠ (s.obj i).name) (T : ∀ j, TA s j) :
    ∀ j, TA (handleChangeInternal C (s.setObj i { s.obj i with name := n }) i g).1 j := by
  have O := I.ok i
  obtain ⟨h1, h2, h3, h4⟩ := O.act ha
  have A := I.almost i
  have T0 : ∀ o : Obj, o.thr = (s.obj i).thr ∧ o.entry = (s.obj i).entry → ∀ j, TA (s.setObj i o) j :=
    fun o ho => setObj_ta (.inr ho) (fun j _ => T j)
  cases n with
  | none =>
    obtain ⟨st', hst'⟩ := Option.ne_none_iff_exists'.1 (Ne.symm hne)
    rw [hst'] at h1 h2 h3
    have e : (s.setObj i { s.obj i with name := none }).obj i = { s.obj i with name := none } := by simp
    have h1 : (s.obj i).stateKnown = true := h1
    rw [hci_none C g (by rw [e]), e, setObj_setObj]
    simp only [h1, if_true]
    refine invalidate_ta (C := C) (A.setObj _ (.inr ⟨rfl, rfl⟩)) (by simp [h2]) (by simpa using O.plain)
      (fun j _ => T0 { s.obj i with name := none, stateKnown := false } ⟨rfl, rfl⟩ j)
  | some st =>
    have reg : ∀ s1 : Sys, Almost C s1 i →
        s1.obj i = { s.obj i with name := some st, stateKnown := true, registered := false, thr := none, cached := none, cachedState := st, entry := some st } →
        (∀ j, TA s1 j) → ∀ j, TA (ensureRegistered C s1 i st g) j := by
      intro s1 A1 hi1 T1
      refine ensureRegistered_ta C g A1 (by rw [hi1]) (by rw [hi1]) (by rw [hi1]) ?_ T1
      rw [hi1]
      refine ⟨fun _ => ⟨rfl, rfl, rfl, fun _ h => by simpa using h⟩, fun h => ?_, fun h => ?_, fun _ => rfl, fun _ => rfl, fun _ h => by simp at h⟩
      · exact absurd (ha.symm.trans h) (by decide)
      · exact absurd (hc.symm.trans h) (by decide)
    have e : (s.setObj i { s.obj i with name := some st }).obj i = { s.obj i with name := some st } := by simp
    cases hn : (s.obj i).name with
    | none =>
      rw [hn] at h1 h2 h3
      have ht : (s.obj i).thr = none := by
        cases ht : (s.obj i).thr with
        | none => rfl
        | some th => have := (O.shape th ht).1; rw [h2] at this; simp at this
      have h1 : (s.obj i).stateKnown = false := h1
      rw [hci_some C (b := false) (st := st) g (by rw [e]) (by rw [e]; simp [h1]) rfl, e, setObj_setObj]
      simp only [Bool.false_eq_true, if_false, setObj_obj, if_true, setObj_setObj]
      refine reg _ (A.setObj _ (.inl ⟨h3, h3⟩)) ?_ (setObj_ta (.inl ht) (fun j _ => T j))
      rw [setObj_obj, if_pos rfl, ← O.pair ht, ← ht, ← show (s.obj i).registered = false from h3]
    | some st' =>
      rw [hn] at h1 h2 h3
      have hd : st ≠ st' := fun h => hne (by rw [hn, h])
      obtain ⟨s0, hs0⟩ : ∃ s0, s0 = s.setObj i { s.obj i with name := some st, stateKnown := true } := ⟨_, rfl⟩
      have A0 : Almost C s0 i := by rw [hs0]; exact A.setObj _ (.inr ⟨rfl, rfl⟩)
      have hi0 : s0.obj i = { s.obj i with name := some st, stateKnown := true } := by rw [hs0]; simp
      have he0 : (s0.obj i).registered = true → (s0.obj i).entry ≠ none := by rw [hi0]; simp [h2]
      obtain ⟨k1, k2, k3⟩ := invalidate_spec A0 he0 (by rw [hi0]; exact O.pair) (by rw [hi0]; exact O.plain)
      have h1 : (s.obj i).stateKnown = true := h1
      rw [hci_some C (b := true) (st := st) (s1 := invalidateOldState s0 i) g (by rw [e])
        (by rw [e]; simp [h1, h4 st' hn, hd]) (by rw [if_pos rfl, e, setObj_setObj, hs0])]
      refine reg _ (k2.setObj _ (.inl ⟨by rw [k3], by rw [k3]⟩)) (by rw [setObj_obj, if_pos rfl, k3, hi0]) ?_
      refine setObj_ta (.inl (by rw [k3])) (fun j _ => ?_)
      refine invalidate_ta A0 he0 (by rw [hi0]; exact O.plain) (fun j _ => ?_) j
      rw [hs0]; exact T0 { s.obj i with name := some st, stateKnown := true } ⟨rfl, rfl⟩ j

theorem handleChange_ta (C : Cfg) {s : Sys} {i : Nat} (g : Given) (B : Base (handleChangeInternal C s i g).1)
    (ha : ((handleChangeInternal C s i g).1.obj i).active = true) (hw : Wide ((handleChangeInternal C s i g).1.obj i))
    (T : ∀ j, TA (handleChangeInternal C s i g).1 j) : ∀ j, TA (handleChange C s i g) j := by
  unfold handleChange
  dsimp only
  by_cases hch : ((handleChangeInternal C s i g).1.obj i).onChange = true
  · simp only [if_pos hch]
    split
    · exact publish_ta i (updateInternal_ta C B i _ ha hch hw T)
    · exact updateInternal_ta C B i _ ha hch hw T
  · simp only [if_neg hch]
    split
    · exact publish_ta i T
    · exact T

/-- An event does not shrink a known tolerance of an active lookup. -/
def Ev.widening (s : Sys) : Ev → Prop
  | .retol i (some t') => (s.obj i).active = true → ∀ t, (s.obj i).tol = some t → t.natAbs ≤ t'.natAbs
  | _ => True

theorem step_ta (C : Cfg) {s : Sys} (I : Inv C s) (e : Ev) (hw : e.widening s) (T : ∀ j, TA s j) :
    ∀ j, TA (step C s e) j := by
  cases e with
  | activate i g =>
    simp only [step]
    split
    · exact T
    · next h =>
      have ha : (s.obj i).active = false := by simpa using h
      obtain ⟨o, s1, he, I1, ha1, hc1, hthr, hs1⟩ := activate_split C I g ha
      have T0 : ∀ j, TA (s.setObj i o) j := setObj_ta (.inl hthr) (fun j _ => T j)
      have T1 : ∀ j, TA s1 j := by
        rcases hs1 with rfl | ⟨st, rfl, A0, h1, h2, h3⟩
        · exact T0
        · exact ensureRegistered_ta C (st := st) g A0 (by simpa using h1) (by simpa using hthr) (by simpa using h2)
            (by simpa using h3.1) T0
      rw [he]
      split
      · next hch =>
        have T2 := updateInternal_ta C I1.toBase i true ha1 (by rw [hc1]; exact hch) (I1.wide i) T1
        split
        · exact publish_ta i T2
        · exact T2
      · exact T1
  | deactivate i =>
    simp only [step]
    split
    · next ha =>
      have O := I.ok i
      obtain ⟨h1, h2, h3, h4⟩ := O.act ha
      unfold deactivate
      dsimp only
      obtain ⟨s0, hs0⟩ : ∃ s0, s0 = s.setObj i { s.obj i with active := false } := ⟨_, rfl⟩
      have hi0 : s0.obj i = { s.obj i with active := false } := by rw [hs0]; simp
      have A0 : Almost C s0 i := by rw [hs0]; exact (I.almost i).setObj _ (.inr ⟨rfl, rfl⟩)
      have T0 : ∀ j, TA s0 j := by rw [hs0]; exact setObj_ta (.inr ⟨rfl, rfl⟩) (fun j _ => T j)
      have he0 : (s0.obj i).registered = true → (s0.obj i).entry ≠ none := by
        rw [hi0]; simp only; rw [h3, h2]; intro h; exact Option.isSome_iff_ne_none.1 h
      rw [← hs0]
      have T1 : ∀ j, j ≠ i → TA (if (s0.obj i).stateKnown = true then unregister s0 i else s0) j := by
        intro j hj
        split
        · exact unregister_ta A0 he0 (fun j _ => T0 j) j hj
        · exact T0 j
      have hoc : ∀ s1 : Sys, s1 = (if (s0.obj i).stateKnown = true then unregister s0 i else s0) →
          (s1.obj i).thr = (s.obj i).thr ∧ (s1.obj i).onChange = (s.obj i).onChange := by
        rintro s1 rfl
        split
        · rw [(unregister_spec A0 he0).2.2, hi0]; exact ⟨rfl, rfl⟩
        · rw [hi0]; exact ⟨rfl, rfl⟩
      generalize hs1 : (if (s0.obj i).stateKnown = true then unregister s0 i else s0) = s1 at T1
      obtain ⟨e1, e2⟩ := hoc s1 hs1.symm
      have hn : ∀ o : Obj, o.thr = (s.obj i).thr → o.onChange = (s.obj i).onChange →
          (if (o.onChange && o.thr.isSome) = true then { o with thr := none, cached := none } else o).thr = none := by
        intro o k1 k2
        rw [k1, k2]
        cases ht : (s.obj i).thr with
        | none => simp [k1, ht]
        | some th =>
          cases hc : (s.obj i).onChange with
          | true => simp
          | false => rw [O.plain hc] at ht; simp at ht
      have hn' := hn (if (s1.obj i).const = true then s1.obj i else { s1.obj i with entry := none })
        (by split <;> exact e1) (by split <;> exact e2)
      refine setObj_ta (.inl hn') (fun j hj => ?_)
      rcases hj with hj | hj
      · exact T1 j hj
      · exact absurd hn' hj
    · exact T
  | rename i n g =>
    simp only [step]
    split
    · exact T
    · next hc =>
      have hc : (s.obj i).const = false := by simpa using hc
      simp only [setObj_obj, if_true]
      split
      · next ha =>
        by_cases hn : n = (s.obj i).name
        · have e0 : s.setObj i { s.obj i with name := n } = s := by rw [hn]; exact setObj_self s i
          have e : handleChangeInternal C s i g = (s, false) := hci_same C g (I.ok i) ha
          rw [e0]
          exact handleChange_ta C g (by rw [e]; exact I.toBase) (by rw [e]; exact ha) (by rw [e]; exact I.wide i) (by rw [e]; exact T)
        · obtain ⟨s1, e, H⟩ := hci_changed C I n g ha hc hn
          have T1 := hci_ta C I n g ha hc hn T
          exact handleChange_ta C g (by rw [e]; exact H.inv.toBase) (by rw [e]; exact H.active) (by rw [e]; exact H.inv.wide i) T1
      · exact setObj_ta (.inr ⟨rfl, rfl⟩) (fun j _ => T j)
  | retol i t =>
    simp only [step, setObj_obj, if_true]
    have T0 : ∀ j, TA (s.setObj i { s.obj i with tol := t }) j := setObj_ta (.inr ⟨rfl, rfl⟩) (fun j _ => T j)
    split
    · next h =>
      obtain ⟨s0, hs0⟩ : ∃ s0, s0 = s.setObj i { s.obj i with tol := t } := ⟨_, rfl⟩
      have hi0 : s0.obj i = { s.obj i with tol := t } := by rw [hs0]; simp
      have ho0 : ∀ j, j ≠ i → s0.obj j = s.obj j := fun j hj => by rw [hs0]; simp [hj]
      have K0 : Keep s s0 := by rw [hs0]; exact keep_setObj _ _ _
      have O := I.ok i
      have B0 : Base s0 := by
        refine ⟨by rw [hs0]; exact I.crash, fun j => ?_, ⟨fun st => ?_, fun st j => ?_⟩, fun j st => ?_⟩
        · by_cases hj : j = i
          · rw [hj, hi0]; exact ⟨O.act, O.inact, O.const, O.plain, O.pair, O.shape⟩
          · rw [ho0 j hj]; exact I.ok j
        · rw [K0.lookups]; exact I.reg.nodup st
        · rw [K0.lookups, I.reg.mem st j]
          by_cases hj : j = i
          · rw [hj, hi0]
          · rw [ho0 j hj]
        · rw [K0.value]
          by_cases hj : j = i
          · rw [hj, hi0]; exact I.val i st
          · rw [ho0 j hj]; exact I.val j st
      have e : handleChangeInternal C s0 i .nothing = (s0, false) := hci_same C .nothing (B0.ok i) (by rw [hi0]; exact h.1)
      rw [← hs0] at T0 ⊢
      refine handleChange_ta C .nothing (by rw [e]; exact B0) (by rw [e, hi0]; exact h.1) ?_ (by rw [e]; exact T0)
      rw [e, hi0]
      intro th t' b k1 k2 k3
      simp only at k1 k2 k3
      subst k2
      obtain ⟨⟨t0, ht0, hab⟩, _⟩ := I.fits i th k1 _ k3
      have hle := hw h.1 t0 ht0
      rw [hab rfl]
      unfold absTol
      split <;> split <;> omega
    · exact T0
  | give st g => exact give_ta C I st g T
  | tick => exact T

end Verif.Lookup
