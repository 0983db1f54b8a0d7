import Verif.Lookup.Thresholds

/-!
C42 (a LookupOnChange reports the state within its tolerance), C43 (listeners hear of every change of the
reported value, and of none within the tolerance), C44 (values within the thresholds given to the interface
make no difference), C45 (registrations), C46 (what is in the cache, and
when the interface is asked).
-/
namespace Verif.Lookup

/-! ### Every event keeps the invariant -/

/-- What a step does, from outside. -/
structure StepSpec (C : Cfg) (s : Sys) (e : Ev) (s' : Sys) : Prop where
  inv : Inv C s'
  told : ∃ new, s'.published = new ++ s.published ∧
    ∀ j, (s.obj j).active = true → (s'.obj j).active = true → s'.value j ≠ s.value j → j ∈ new ∨ e = .retol j none

theorem init_inv {C : Cfg} {s : Sys} (h : Init s) : Inv C s := by
  have F := h.obj
  refine ⟨⟨h.crash, fun i => ?_, ⟨fun st => by rw [h.entry]; simp, fun st i => ?_⟩, fun i st h1 => ?_⟩, fun i => ?_⟩
  · obtain ⟨h1, h2, h3, h4, h5, h6, h7⟩ := F i
    refine ⟨fun h => by rw [h1] at h; simp at h, fun _ => ⟨h3, h4, fun _ => h2, fun st h => by rw [h2] at h; simp at h⟩,
      h6, fun _ => h4, fun _ => h5, fun th h => by rw [h4] at h; simp at h⟩
  · rw [h.entry, (F i).2.2.1]; simp
  · rw [(F i).2.2.2.1] at h1; exact absurd rfl h1
  · exact fits_of_none (F i).2.2.2.1

theorem setObj_inactive {C : Cfg} {s : Sys} (I : Inv C s) (i : Nat) (o : Obj) (ho : Ok o) (ht : o.thr = none)
    (hr : o.registered = (s.obj i).registered) (he : o.entry = (s.obj i).entry) : Inv C (s.setObj i o) :=
  ((I.almost i).setObj o (.inr ⟨hr, he⟩)).inv (by simp [ho]) (by simp [ht])

theorem step_spec (C : Cfg) {s : Sys} (I : Inv C s) (e : Ev) : StepSpec C s e (step C s e) := by
  have noop : ∀ e, StepSpec C s e s := fun e => ⟨I, [], rfl, fun j _ _ h => absurd rfl h⟩
  cases e with
  | activate i g =>
    show StepSpec C s _ (if _ then _ else _)
    split
    · exact noop _
    · next h =>
      have A := activate_ac C I g (by simpa using h)
      obtain ⟨new, hp, hn⟩ := A.told
      refine ⟨A.inv, new, hp, fun j hj _ hv => .inl (hn j (fun e => h (e ▸ hj)) hv)⟩
  | deactivate i =>
    show StepSpec C s _ (if _ then _ else _)
    split
    · next h =>
      obtain ⟨h1, h2, h3, _⟩ := deactivate_spec C I h
      refine ⟨h1, [], h2.published, fun j _ hj hv => ?_⟩
      by_cases hji : j = i
      · rw [hji, h3] at hj; simp at hj
      · exact absurd (h2.val hji) hv
    · exact noop _
  | rename i n g =>
    show StepSpec C s _ (if _ then _ else _)
    split
    · exact noop _
    · next hc =>
      have hc : (s.obj i).const = false := by simpa using hc
      simp only [setObj_obj, if_true]
      split
      · next ha =>
        obtain ⟨h1, _, _, new, hp, hn⟩ := rename_evt C I n g ha hc
        exact ⟨h1, new, hp, fun j _ _ hv => .inl (hn j hv)⟩
      · next ha =>
        have O := I.ok i
        have ha : (s.obj i).active = false := by simpa using ha
        have I' := setObj_inactive I i { s.obj i with name := n } ⟨fun h => absurd (ha.symm.trans h) (by decide), O.inact,
          fun h => absurd (hc.symm.trans h) (by decide), O.plain, O.pair, O.shape⟩ (O.inact ha).2.1 rfl rfl
        refine ⟨I', [], rfl, fun j hj _ hv => ?_⟩
        by_cases hji : j = i
        · rw [hji, ha] at hj; simp at hj
        · exact absurd ((calm_setObj s i _).val hji) hv
  | retol i t =>
    show StepSpec C s _ (if _ then _ else _)
    simp only [setObj_obj, if_true]
    split
    · next h =>
      obtain ⟨h1, _, _, _, new, hp, hn⟩ := retol_evt C I t h.1 h.2
      refine ⟨h1, new, hp, fun j _ _ hv => ?_⟩
      rcases hn j hv with h' | ⟨h', ht, _⟩
      · exact .inl h'
      · right; rw [h', ht]
    · next h =>
      have O := I.ok i
      have ht : (s.obj i).thr = none := by
        cases ha : (s.obj i).active with
        | false => exact (O.inact ha).2.1
        | true =>
          cases hc : (s.obj i).onChange with
          | false => exact O.plain hc
          | true => exact absurd ⟨ha, hc⟩ h
      have I' := setObj_inactive I i { s.obj i with tol := t } ⟨O.act, O.inact, O.const, O.plain, O.pair, O.shape⟩ ht rfl rfl
      refine ⟨I', [], rfl, fun j hj _ hv => ?_⟩
      by_cases hji : j = i
      · exfalso; apply hv
        rw [hji]
        unfold Sys.value
        simp only [setObj_obj, if_true, setObj_entry]
      · exact absurd ((calm_setObj s i _).val hji) hv
  | give st g =>
    have G := give_gv C I st g
    obtain ⟨new, hp, hn⟩ := G.told
    exact ⟨G.inv, new, hp, fun j _ _ hv => .inl ((hn j).1 hv)⟩
  | tick =>
    exact ⟨⟨⟨I.crash, I.ok, ⟨I.reg.nodup, I.reg.mem⟩, I.val⟩, I.fits⟩, [], rfl, fun j _ _ h => absurd rfl h⟩

theorem Reach.inv {C : Cfg} {s : Sys} (h : Reach C s) : Inv C s := by
  induction h with
  | init h => exact init_inv h
  | step e _ ih => exact (step_spec C ih e).inv

theorem Reach.settled {C : Cfg} {s : Sys} (h : Reach C s) (i : Nat) : SE s i := by
  induction h with
  | init h => intro st v h1; rw [(h.obj i).1] at h1; simp at h1
  | step e hr ih => exact step_se C hr.inv e i ih

/-! ### C42 -/

/-- The value of a state according to the interface: none if nothing known has been received. -/
def Sys.truth (s : Sys) (st : Nat) : Option Int := (s.entry st).value.getD none

theorem value_of_entry {s : Sys} {i st : Nat} (ha : (s.obj i).active = true) (he : (s.obj i).entry = some st)
    (hp : (s.entry st).value = none → (s.obj i).cached = none) :
    s.value i = if (s.obj i).onChange then (s.obj i).cached.getD (s.truth st) else s.truth st := by
  unfold Sys.value Sys.truth
  dsimp only
  rw [ha, he]
  cases hv : (s.entry st).value with
  | none => simp [hp hv, hv]
  | some v => simp [hv]

/-- **C42.**  A lookup without tolerance reports the current value of the state it names. -/
theorem c42_plain {C : Cfg} {s : Sys} (h : Reach C s) (i st : Nat) (ha : (s.obj i).active = true)
    (hc : (s.obj i).onChange = false) (hn : (s.obj i).name = some st) : s.value i = s.truth st := by
  have O := h.inv.ok i
  obtain ⟨_, he, _, _⟩ := O.act ha
  rw [value_of_entry ha (he.trans hn) (fun _ => O.pair (O.plain hc)), hc]; rfl

/-- An inactive lookup, or one whose state is not known, reports nothing. -/
theorem c42_nothing {C : Cfg} {s : Sys} (h : Reach C s) (i : Nat)
    (hn : (s.obj i).active = false ∨ (s.obj i).name = none) : s.value i = none := by
  unfold Sys.value
  dsimp only
  rcases hn with hn | hn
  · rw [hn]
  · cases ha : (s.obj i).active with
    | false => rfl
    | true => rw [((h.inv.ok i).act ha).2.1, hn]

/-- What is true of a lookup with a tolerance on a state of any type. -/
theorem c42_general {C : Cfg} {s : Sys} (h : Reach C s) (i st : Nat) (ha : (s.obj i).active = true)
    (hc : (s.obj i).onChange = true) (hn : (s.obj i).name = some st) :
    ((s.obj i).tol = none → s.value i = s.truth st) ∧
    (s.truth st = none → s.value i = none) ∧
    (∀ t v c, (s.obj i).tol = some t → s.truth st = some v → s.value i = some c →
      c = v ∨ (v - c).natAbs < t.natAbs) ∧
    (C.kind st = .real → ∀ v, s.truth st = some v → s.value i ≠ none) := by
  have I := h.inv
  have O := I.ok i
  obtain ⟨_, he, _, _⟩ := O.act ha
  have he : (s.obj i).entry = some st := he.trans hn
  cases ht : (s.obj i).thr with
  | none =>
    have hv : s.value i = s.truth st := by
      rw [value_of_entry ha he (fun _ => O.pair ht), O.pair ht]; simp
    rw [hv]
    exact ⟨fun _ => rfl, fun h => h, fun t v c _ h1 h2 => .inl (by rw [h1] at h2; exact (Option.some.inj h2).symm),
      fun _ v h1 => by rw [h1]; simp⟩
  | some th =>
    obtain ⟨_, c0, hc0, hw, hb⟩ := O.shape th ht
    obtain ⟨⟨t0, ht0, hab⟩, hfit⟩ := I.fits i th ht c0 hc0
    obtain ⟨v0, hv0⟩ := Option.ne_none_iff_exists'.1 (I.val i st (by rw [ht]; simp) he)
    have hv : s.value i = c0 := by
      rw [value_of_entry ha he (fun h => by rw [hv0] at h; simp at h), hc, hc0]; rfl
    have htr : s.truth st = v0 := by unfold Sys.truth; rw [hv0]; rfl
    rw [hv, htr, ht0]
    have hf := hfit st v0 he hv0
    refine ⟨fun h => by simp at h, fun h => ?_, fun t v c h1 h2 h3 => ?_, fun hk v h1 h2 => ?_⟩
    · rcases hf with h' | ⟨b, x, _, h', _⟩ | ⟨_, h'⟩
      · rw [← h']; exact h
      · rw [h] at h'; simp at h'
      · exact h'
    · cases h1
      rcases hf with h' | ⟨b, x, h4, h5, h6, h7⟩ | ⟨_, h'⟩
      · left; rw [h2, h3] at h'; exact (Option.some.inj h').symm
      · right
        rw [h3] at h4; cases h4
        rw [h2] at h5; cases h5
        have h8 := hb c h3
        have h9 := hab (by rw [h3]; rfl)
        unfold absTol at h9
        split at h9 <;> omega
      · rw [h3] at h'; simp at h'
    · rcases hf with h' | ⟨b, x, h4, _⟩ | ⟨h', _⟩
      · rw [h1, h2] at h'; simp at h'
      · rw [h2] at h4; simp at h4
      · rw [hk] at h'; simp at h'

/-- **C42**, Real states: the value reported by a lookup with a tolerance is known exactly if the state's is,
and differs from it by less than the tolerance (or not at all). -/
theorem c42_real {C : Cfg} {s : Sys} (h : Reach C s) (i st : Nat) (ha : (s.obj i).active = true)
    (hc : (s.obj i).onChange = true) (hn : (s.obj i).name = some st) (hk : C.kind st = .real) :
    match s.truth st, (s.obj i).tol with
    | none, _ => s.value i = none
    | some v, none => s.value i = some v
    | some v, some t => ∃ c, s.value i = some c ∧ (c = v ∨ (v - c).natAbs < t.natAbs) := by
  obtain ⟨h1, h2, h3, h4⟩ := c42_general h i st ha hc hn
  cases htr : s.truth st with
  | none => exact h2 htr
  | some v =>
    cases htol : (s.obj i).tol with
    | none => exact (h1 htol).trans htr
    | some t =>
      obtain ⟨c, hcv⟩ := Option.ne_none_iff_exists'.1 (h4 hk v htr)
      exact ⟨c, hcv, h3 t v c htol htr hcv⟩

/-- **C42**, Integer states, partial: a known reported value is within the tolerance, and an unknown state is
reported as unknown.  Missing: a known state may be reported as unknown (`c42_integer_false`). -/
theorem c42_integer_partial {C : Cfg} {s : Sys} (h : Reach C s) (i st : Nat) (ha : (s.obj i).active = true)
    (hc : (s.obj i).onChange = true) (hn : (s.obj i).name = some st) :
    match s.truth st, s.value i with
    | none, w => w = none
    | some v, some c => c = v ∨ ∃ t, (s.obj i).tol = some t ∧ (v - c).natAbs < t.natAbs
    | some _, none => (s.obj i).tol ≠ none := by
  obtain ⟨h1, h2, h3, _⟩ := c42_general h i st ha hc hn
  cases htr : s.truth st with
  | none => exact h2 htr
  | some v =>
    cases hv : s.value i with
    | none =>
      simp only
      intro h
      have := h1 h
      rw [hv, htr] at this; simp at this
    | some c =>
      simp only
      cases htol : (s.obj i).tol with
      | none =>
        left
        have := h1 htol
        rw [hv, htr] at this; exact Option.some.inj this
      | some t =>
        rcases h3 t v c htol htr hv with h | h
        · exact .inl h
        · exact .inr ⟨t, rfl, h⟩

/-! ### A concrete system -/

/-- Lookup 0 is `LookupOnChange(x, 5)`, lookup 1 `LookupOnChange(y, 5)`, the others are `Lookup(x)`; state
`x` (0) is Real, state `y` (1) Integer. -/
def exObj (i : Nat) : Obj :=
  { onChange := i < 2, const := true, active := false, name := some (if i = 1 then 1 else 0),
    cachedState := if i = 1 then 1 else 0, stateKnown := true, entry := none, registered := false,
    tol := some 5, thr := none, cached := none }

def exCfg : Cfg := ⟨fun st => if st = 0 then .real else .int, fun _ => 0⟩

def exSys : Sys := ⟨1, fun _ => ⟨none, 0, [], false⟩, exObj, fun _ => none, [], [], false⟩

def runs (C : Cfg) (s : Sys) (es : List Ev) : Sys := es.foldl (step C) s

theorem exInit : Init exSys := by
  refine ⟨rfl, fun _ => rfl, fun i => ⟨rfl, rfl, rfl, rfl, rfl, fun _ => ⟨rfl, rfl⟩, fun h => ?_⟩, fun _ => rfl, rfl, rfl, rfl⟩
  exact absurd h (by simp [exSys, exObj])

theorem Reach.runs {C : Cfg} {s : Sys} (h : Reach C s) (es : List Ev) : Reach C (runs C s es) := by
  induction es generalizing s with
  | nil => exact h
  | cons e es ih => exact ih (.step e h)

theorem exReach (es : List Ev) : Reach exCfg (runs exCfg exSys es) := (Reach.init exInit).runs es

/-- Within the tolerance the old value is reported, while a plain lookup reports the new one; beyond it the
new one. -/
example : let s := runs exCfg exSys [.activate 0 (.known 10), .activate 2 .nothing, .give 0 (.known 14)]
    s.truth 0 = some 14 ∧ s.value 0 = some 10 ∧ s.value 2 = some 14 ∧
    (runs exCfg s [.give 0 (.known 15)]).value 0 = some 15 ∧ (runs exCfg s [.give 0 .unknown]).value 0 = none := by decide

/-- **C42 is false of Integer states**: known, then unknown, then known again near the old value — the
lookup goes on reporting an unknown value (`Lookup.cc:658-666` does not look at `m_wasKnown` as the Real
variant does), though `isKnown` says it is known. -/
theorem c42_integer_false : ∃ s, Reach exCfg s ∧ (s.obj 1).active = true ∧ (s.obj 1).name = some 1 ∧
    (s.obj 1).tol = some 5 ∧ s.truth 1 = some 12 ∧ s.value 1 = none ∧ s.isKnown 1 = true :=
  ⟨_, exReach [.activate 1 (.known 10), .give 1 .unknown, .give 1 (.known 12)], by decide⟩

/-! ### C43 -/

/-- **C43.**  Whenever an event changes the value reported by an active lookup, the lookup's listeners are
called during that event — unless the event is that the lookup's tolerance becomes unknown. -/
theorem c43_published {C : Cfg} {s : Sys} (h : Reach C s) (e : Ev) :
    ∃ new, (step C s e).published = new ++ s.published ∧
      ∀ i, (s.obj i).active = true → ((step C s e).obj i).active = true →
        (step C s e).value i ≠ s.value i → e ≠ .retol i none → i ∈ new := by
  obtain ⟨new, hp, hn⟩ := (step_spec C h.inv e).told
  refine ⟨new, hp, fun i h1 h2 h3 h4 => ?_⟩
  rcases hn i h1 h2 h3 with h' | h'
  · exact h'
  · exact absurd h' h4

/-- The exception is real: when the tolerance becomes unknown the reported value may change, and nobody is
told (`Lookup.cc:1031-1045` returns `valueChanged`, which is false). -/
theorem c43_tolerance_unknown_false : ∃ s, Reach exCfg s ∧ (s.obj 0).active = true ∧
    let s' := step exCfg s (.retol 0 none)
    (s'.obj 0).active = true ∧ s'.value 0 ≠ s.value 0 ∧ s'.published = s.published :=
  ⟨_, exReach [.activate 0 (.known 10), .give 0 (.known 14)], by decide⟩

/-- The hypotheses of `c43_published` are met. -/
example : let s := runs exCfg exSys [.activate 0 (.known 10)]
    (s.obj 0).active = true ∧ (step exCfg s (.give 0 (.known 17))).value 0 ≠ s.value 0 ∧
    (step exCfg s (.give 0 (.known 17))).published = 0 :: s.published := by decide

theorem valueChanged_only (C : Cfg) {s : Sys} (B : Base s) (i j : Nat) (ha : (s.obj i).active = true) (hj : j ≠ i) :
    ∃ new, (valueChanged C s i).published = new ++ s.published ∧ j ∉ new := by
  unfold valueChanged
  have pub : ∀ s' : Sys, s'.published = s.published → ∃ new, (s'.publish i).published = new ++ s.published ∧ j ∉ new := by
    intro s' h
    unfold Sys.publish
    split
    · exact ⟨[i], by simp [h], by simp [hj]⟩
    · exact ⟨[], by simp [h], by simp⟩
  split
  · next hch =>
    have U := updateInternal_upd C B i true ha hch
    dsimp only
    split
    · exact pub _ U.published
    · exact ⟨[], by simp [U.published], by simp⟩
  · exact pub s rfl

theorem notifyAll_only (C : Cfg) (l : List Nat) : ∀ {s : Sys}, Base s → l.Nodup →
    (∀ i ∈ l, (s.obj i).active = true ∧ ((s.obj i).thr ≠ none → (s.obj i).tol ≠ none)) → ∀ j, j ∉ l →
    ∃ new, (notifyAll C s l).published = new ++ s.published ∧ j ∉ new := by
  induction l with
  | nil => intro s _ _ _ j _; exact ⟨[], rfl, by simp⟩
  | cons i l ih =>
    intro s B hn hl j hj
    obtain ⟨hni, hn⟩ := List.nodup_cons.1 hn
    have V := valueChanged_vc C B i (hl i (by simp)).1 (hl i (by simp)).2
    obtain ⟨n1, e1, h1⟩ := valueChanged_only C B i j (hl i (by simp)).1 (fun h => hj (h ▸ List.mem_cons_self))
    obtain ⟨n2, e2, h2⟩ := ih V.base hn (fun k hk => by
      rw [V.other k (fun e => hni (e ▸ hk))]; exact hl k (List.mem_cons_of_mem _ hk)) j (fun h => hj (List.mem_cons_of_mem _ h))
    refine ⟨n2 ++ n1, ?_, ?_⟩
    · show (notifyAll C (valueChanged C s i) l).published = _
      rw [e2, e1, List.append_assoc]
    · simp [h1, h2]

theorem notifyAll_quiet (C : Cfg) (l : List Nat) (j : Nat) (P : Sys → Prop)
    (hP : ∀ s, Base s → P s → (valueChanged C s j) = s)
    (hS : ∀ s s', P s → s'.obj j = s.obj j → (∀ st, (s'.entry st).value = (s.entry st).value) → P s') : ∀ {s : Sys}, Base s → l.Nodup →
    (∀ i ∈ l, (s.obj i).active = true ∧ ((s.obj i).thr ≠ none → (s.obj i).tol ≠ none)) → P s →
    ∃ new, (notifyAll C s l).published = new ++ s.published ∧ j ∉ new := by
  induction l with
  | nil => intro s _ _ _ _; exact ⟨[], rfl, by simp⟩
  | cons i l ih =>
    intro s B hn hl hPs
    obtain ⟨hni, hn'⟩ := List.nodup_cons.1 hn
    by_cases hji : j = i
    · subst hji
      show ∃ new, (notifyAll C (valueChanged C s j) l).published = _ ∧ _
      rw [hP s B hPs]
      exact notifyAll_only C l B hn' (fun k hk => hl k (List.mem_cons_of_mem _ hk)) j hni
    · have V := valueChanged_vc C B i (hl i (by simp)).1 (hl i (by simp)).2
      obtain ⟨n1, e1, h1⟩ := valueChanged_only C B i j (hl i (by simp)).1 hji
      obtain ⟨n2, e2, h2⟩ := ih V.base hn' (fun k hk => by
        rw [V.other k (fun e => hni (e ▸ hk))]; exact hl k (List.mem_cons_of_mem _ hk)) (hS s _ hPs (V.other j hji) V.keep.value)
      refine ⟨n2 ++ n1, ?_, ?_⟩
      · show (notifyAll C (valueChanged C s i) l).published = _
        rw [e2, e1, List.append_assoc]
      · simp [h1, h2]

/-- **C43**, the other half: a new value within the tolerance of the reported one (for a Real state, by at
least the rounding margin) neither changes what the lookup reports nor calls its listeners. -/
theorem c43_quiet {C : Cfg} {s : Sys} (h : Reach C s) (i st : Nat) (t c v : Int) (ha : (s.obj i).active = true)
    (hn : (s.obj i).name = some st) (hch : (s.obj i).onChange = true) (ht : (s.obj i).tol = some t)
    (hc : s.value i = some c) (hv : (v - c).natAbs < t.natAbs)
    (hm : C.kind st = .real → C.eps v ≤ (t.natAbs : Int) - (v - c).natAbs) :
    (step C s (.give st (.known v))).value i = some c ∧
    ∃ new, (step C s (.give st (.known v))).published = new ++ s.published ∧ i ∉ new := by
  have I := h.inv
  have O := I.ok i
  obtain ⟨_, he, hreg, _⟩ := O.act ha
  have he : (s.obj i).entry = some st := he.trans hn
  have hset : (s.obj i).thr ≠ none := by
    have h2 := (c42_general h i st ha hch hn).2.1
    cases htr : s.truth st with
    | none => rw [h2 htr] at hc; simp at hc
    | some v0 =>
      unfold Sys.truth at htr
      cases hv0 : (s.entry st).value with
      | none => rw [hv0] at htr; simp at htr
      | some w =>
        rw [hv0] at htr
        simp only [Option.getD_some] at htr
        rw [htr] at hv0
        exact h.settled i st v0 ha hch he (by rw [ht]; simp) hv0
  obtain ⟨th, hth⟩ := Option.ne_none_iff_exists'.1 hset
  obtain ⟨_, c0, hc0, hw, hb⟩ := O.shape th hth
  obtain ⟨⟨t0, ht0, hab⟩, hfit⟩ := I.fits i th hth c0 hc0
  obtain ⟨v0, hv0⟩ := Option.ne_none_iff_exists'.1 (I.val i st (by rw [hth]; simp) he)
  have hcc : c0 = some c := by
    rw [← hc, value_of_entry ha he (fun h => by rw [hv0] at h; simp at h), hch, hc0]; rfl
  subst hcc
  rw [ht] at ht0; cases ht0
  have hab := hab rfl
  obtain ⟨hlo, hhi⟩ := hb c rfl
  have hnat : (absTol t) = (t.natAbs : Int) := by unfold absTol; split <;> omega
  have hbnd : th.low < v ∧ v < th.high := by omega
  have hex : exceeded C (C.kind st) th (some v) = false := by
    unfold exceeded
    cases hk : C.kind st with
    | int => simp; omega
    | real =>
      have := hm hk
      rw [hw]
      simp; omega
  have hP : ∀ s1 : Sys, Base s1 → (s1.obj i = s.obj i ∧ (s1.entry st).value = some (some v)) → valueChanged C s1 i = s1 := by
    intro s1 _ hs1
    obtain ⟨ho, hval⟩ := hs1
    unfold valueChanged
    rw [updateInternal_known C s1 i true (th := th) (st := st) (t := t) (val := some v) (th' := th) (by rw [ho]; exact hth)
      (by rw [ho]; exact he) (by rw [ho]; exact ht) hval (by
        rw [if_neg]; simp [toleranceChanged, hab])]
    rw [hex]
    have : ({ s1.obj i with thr := some th } : Obj) = s1.obj i := by rw [← hth, ← ho]
    rw [this, setObj_self, ho, hch, ha]
    simp
  have hS : ∀ s1 s2 : Sys, (s1.obj i = s.obj i ∧ (s1.entry st).value = some (some v)) → s2.obj i = s1.obj i →
      (∀ st, (s2.entry st).value = (s1.entry st).value) → (s2.obj i = s.obj i ∧ (s2.entry st).value = some (some v)) :=
    fun s1 s2 h1 h2 h3 => ⟨h2.trans h1.1, (h3 st).trans h1.2⟩
  show (give C s st (.known v)).value i = _ ∧ ∃ new, (give C s st (.known v)).published = _ ∧ _
  have key : ∃ new, (give C s st (.known v)).published = new ++ s.published ∧ i ∉ new := by
    unfold give
    dsimp only
    split
    · exact ⟨[], rfl, by simp⟩
    · have B := base_setValue I.toBase st { s.entry st with value := some (some v), stamp := s.cycle } rfl (by simp)
      exact notifyAll_quiet C _ i (fun s1 => s1.obj i = s.obj i ∧ (s1.entry st).value = some (some v)) hP hS B
        (I.reg.nodup st) (fun k hk => ⟨(I.toBase.mem_active hk).1, I.tol k⟩) ⟨rfl, by simp⟩
  refine ⟨?_, key⟩
  obtain ⟨new, hp, hin⟩ := key
  obtain ⟨new', hp', hn'⟩ := (give_gv C I st (.known v)).told
  have : new' = new := List.append_cancel_right (hp'.symm.trans hp)
  rw [← hc]
  exact Classical.byContradiction fun hne => hin (this ▸ (hn' i).1 hne)

/-- The hypotheses of `c43_quiet` are met. -/
example : let s := runs exCfg exSys [.activate 0 (.known 10), .give 0 (.known 12)]
    (s.obj 0).active = true ∧ (s.obj 0).name = some 0 ∧ (s.obj 0).tol = some 5 ∧ s.value 0 = some 10 := by decide

/-! ### C44 -/

/-- Histories in which no known tolerance of an active lookup shrinks. -/
inductive ReachW (C : Cfg) : Sys → Prop
  | init {s} : Init s → ReachW C s
  | step {s} (e : Ev) : ReachW C s → e.widening s → ReachW C (step C s e)

theorem ReachW.reach {C : Cfg} {s : Sys} (h : ReachW C s) : Reach C s := by
  induction h with
  | init h => exact .init h
  | step e _ _ ih => exact .step e ih

theorem ReachW.ta {C : Cfg} {s : Sys} (h : ReachW C s) : ∀ j, TA s j := by
  induction h with
  | init h => exact fun j => ta_of_none (h.obj j).2.2.2.1
  | step e hr hw ih => exact step_ta C hr.reach.inv e hw ih

/-- **C44**, partial: if no tolerance has shrunk, then for every active lookup with a tolerance that reports
a known value the interface has been given thresholds, and a value strictly between them (for a Real, by the
rounding margin), were it delivered, would change nothing the lookup reports, nor call its listeners.
Missing: the lookups and histories of `c44_plain_false`, `c44_shrunk_false`, `c44_unknown_false`,
`c44_stale_false`, for which the interface may hold back a value that matters. -/
theorem c44_thresholds_partial {C : Cfg} {s : Sys} (h : ReachW C s) (i st : Nat) (t c : Int)
    (ha : (s.obj i).active = true) (hn : (s.obj i).name = some st) (hch : (s.obj i).onChange = true)
    (ht : (s.obj i).tol = some t) (hc : s.value i = some c) :
    ∃ hi lo, s.iface st = some (hi, lo) ∧ ∀ v, lo < v → v < hi →
      (C.kind st = .real → C.eps v ≤ hi - v ∧ C.eps v ≤ v - lo) →
      (step C s (.give st (.known v))).value i = some c ∧
      ∃ new, (step C s (.give st (.known v))).published = new ++ s.published ∧ i ∉ new := by
  have hR := h.reach
  have I := hR.inv
  have O := I.ok i
  obtain ⟨_, he, _, _⟩ := O.act ha
  have he : (s.obj i).entry = some st := he.trans hn
  have hset : (s.obj i).thr ≠ none := by
    have h2 := (c42_general hR i st ha hch hn).2.1
    cases htr : s.truth st with
    | none => rw [h2 htr] at hc; simp at hc
    | some v0 =>
      unfold Sys.truth at htr
      cases hv0 : (s.entry st).value with
      | none => rw [hv0] at htr; simp at htr
      | some w =>
        rw [hv0] at htr
        simp only [Option.getD_some] at htr
        rw [htr] at hv0
        exact hR.settled i st v0 ha hch he (by rw [ht]; simp) hv0
  obtain ⟨th, hth⟩ := Option.ne_none_iff_exists'.1 hset
  obtain ⟨_, hi, lo, hif, h1, h2⟩ := h.ta i th st hth he
  obtain ⟨_, c0, hc0, _, hb⟩ := O.shape th hth
  obtain ⟨⟨t0, ht0, hab⟩, _⟩ := I.fits i th hth c0 hc0
  obtain ⟨v0, hv0⟩ := Option.ne_none_iff_exists'.1 (I.val i st hset he)
  have hcc : c0 = some c := by
    rw [← hc, value_of_entry ha he (fun h => by rw [hv0] at h; simp at h), hch, hc0]; rfl
  subst hcc
  rw [ht] at ht0; cases ht0
  have hab := hab rfl
  obtain ⟨hlo, hhi⟩ := hb c rfl
  have hnat : (absTol t) = (t.natAbs : Int) := by unfold absTol; split <;> omega
  refine ⟨hi, lo, hif, fun v hl hh hm => c43_quiet hR i st t c v ha hn hch ht hc (by omega) (fun hk => ?_)⟩
  have := hm hk
  omega

theorem ReachW.runs {C : Cfg} {s : Sys} (h : ReachW C s) (es : List Ev)
    (hw : ∀ e ∈ es, ∀ i t, e ≠ .retol i (some t)) : ReachW C (Lookup.runs C s es) := by
  induction es generalizing s with
  | nil => exact h
  | cons e es ih =>
    refine ih (.step e h ?_) (fun e' h' => hw e' (List.mem_cons_of_mem _ h'))
    have := hw e (by simp)
    cases e with
    | retol i t =>
      cases t with
      | none => exact trivial
      | some t => exact absurd rfl (this i t)
    | _ => exact trivial

/-- The hypotheses of `c44_thresholds_partial` are met: two lookups with tolerance 5 on one state, activated
at 10 and at 12; the interface is given the narrower band. -/
def exSys2 : Sys := { exSys with obj := fun _ => exObj 0 }

example : ∃ s, ReachW exCfg s ∧ (s.obj 0).active = true ∧ (s.obj 0).name = some 0 ∧ (s.obj 0).onChange = true ∧
    (s.obj 0).tol = some 5 ∧ s.value 0 = some 10 ∧ s.value 1 = some 12 ∧ s.iface 0 = some (15, 7) := by
  refine ⟨Lookup.runs exCfg exSys2 [.activate 0 (.known 10), .give 0 (.known 12), .activate 1 .nothing],
    ReachW.runs (.init ?_) _ (by simp), by decide⟩
  exact ⟨rfl, fun _ => rfl, fun i => exInit.obj 0, fun _ => rfl, rfl, rfl, rfl⟩

/-- The thresholds of one lookup take no account of another without tolerance on the same state: a value the
interface is allowed to hold back changes what the latter reports (`StateCacheEntry.cc:149-183` skips
lookups without thresholds). -/
theorem c44_plain_false : ∃ s, Reach exCfg s ∧ (s.obj 2).active = true ∧ s.iface 0 = some (15, 5) ∧
    s.value 2 = some 10 ∧ (step exCfg s (.give 0 (.known 12))).value 2 = some 12 :=
  ⟨_, exReach [.activate 0 (.known 10), .activate 2 .nothing], by decide⟩

/-- When a tolerance shrinks, the interface keeps the old thresholds until the value leaves the new ones
(`Lookup.cc:1009-1013` does not call `updateThresholds`). -/
theorem c44_shrunk_false : ∃ s, Reach exCfg s ∧ (s.obj 0).active = true ∧ (s.obj 0).tol = some 1 ∧
    s.iface 0 = some (15, 5) ∧ s.value 0 = some 10 ∧ (step exCfg s (.give 0 (.known 12))).value 0 = some 12 :=
  ⟨_, exReach [.activate 0 (.known 10), .retol 0 (some 1)], by decide⟩

/-- When the state becomes unknown, the interface keeps the thresholds around the value it had, though any
known value would now be news (`Lookup.cc:613-639` leaves the bounds as they were). -/
theorem c44_unknown_false : ∃ s, Reach exCfg s ∧ (s.obj 0).active = true ∧ s.iface 0 = some (15, 5) ∧
    s.value 0 = none ∧ (step exCfg s (.give 0 (.known 12))).value 0 = some 12 :=
  ⟨_, exReach [.activate 0 (.known 10), .give 0 .unknown], by decide⟩

/-- When the last lookup of a state goes, its thresholds are dropped without telling the interface
(`StateCacheEntry.cc:117-128`), which keeps them: a later lookup without tolerance is the only one there is,
and yet values may be held back from it. -/
theorem c44_stale_false : ∃ s, Reach exCfg s ∧ (s.entry 0).lookups = [2] ∧ (s.entry 0).thr = false ∧
    (s.obj 2).onChange = false ∧ s.iface 0 = some (15, 5) ∧ s.value 2 = some 10 ∧
    (step exCfg s (.give 0 (.known 12))).value 2 = some 12 :=
  ⟨_, exReach [.activate 0 (.known 10), .deactivate 0, .activate 2 .nothing], by decide⟩

/-! ### C45 -/

/-- **C45.**  The lookups a state's entry will tell of a new value are exactly the active lookups that name
it, each once; and no null pointer is dereferenced on the way. -/
theorem c45_registered {C : Cfg} {s : Sys} (h : Reach C s) (st : Nat) :
    (s.entry st).lookups.Nodup ∧
    (∀ i, i ∈ (s.entry st).lookups ↔ (s.obj i).active = true ∧ (s.obj i).name = some st) ∧ s.crash = false := by
  have I := h.inv
  refine ⟨I.reg.nodup st, fun i => ⟨fun hm => ?_, fun hm => ?_⟩, I.crash⟩
  · obtain ⟨ha, he⟩ := I.toBase.mem_active hm
    exact ⟨ha, by rw [← ((I.ok i).act ha).2.1]; exact he⟩
  · obtain ⟨_, he, hr, _⟩ := (I.ok i).act hm.1
    exact (I.reg.mem st i).2 ⟨by rw [hr, hm.2]; rfl, by rw [he]; exact hm.2⟩

/-- **C45**, its consequence for listeners: nothing is published for an inactive lookup. -/
theorem c45_give_told {C : Cfg} {s : Sys} (h : Reach C s) (st : Nat) (g : Given) (i : Nat)
    (hi : ¬ ((s.obj i).active = true ∧ (s.obj i).name = some st)) :
    ∃ new, (step C s (.give st g)).published = new ++ s.published ∧ i ∉ new := by
  have I := h.inv
  have hm : i ∉ (s.entry st).lookups := fun hm => hi (((c45_registered h st).2.1 i).1 hm)
  have tell : ∀ v : Option Int, ∃ new, (notifyAll C (s.setEntry st { s.entry st with value := some v, stamp := s.cycle })
      (s.entry st).lookups).published = new ++ s.published ∧ i ∉ new := by
    intro v
    have B := base_setValue I.toBase st { s.entry st with value := some v, stamp := s.cycle } rfl (by simp)
    exact notifyAll_only C _ B (I.reg.nodup st) (fun k hk => ⟨(I.toBase.mem_active hk).1, I.tol k⟩) i hm
  show ∃ new, (give C s st g).published = _ ∧ _
  unfold give
  dsimp only
  cases g with
  | nothing => exact ⟨[], rfl, by simp⟩
  | known v =>
    dsimp only
    split
    · exact ⟨[], rfl, by simp⟩
    · exact tell (some v)
  | unknown =>
    dsimp only
    split
    · exact tell none
    · exact ⟨[], rfl, by simp⟩
  | clear =>
    dsimp only
    split
    · exact ⟨[], rfl, by simp⟩
    · next hv =>
      split
      · exact tell none
      · exact ⟨[], rfl, by simp⟩

/-- Two lookups on state 0, one of them deactivated again. -/
example : (runs exCfg exSys [.activate 0 (.known 10), .activate 2 .nothing, .activate 3 .nothing, .deactivate 2]).entry 0
    = ⟨some (some 10), 1, [0, 3], true⟩ := by decide

/-! ### C46 -/

/-- Does this event hand `g` to state `st`?  (An activation or a change of name may make the state cache ask
the interface, which answers `g`.) -/
def Ev.delivers (e : Ev) (s : Sys) (st : Nat) (g : Given) : Prop :=
  match e with
  | .give st' g' => st' = st ∧ g' = g
  | .activate i g' => (s.obj i).name = some st ∧ g' = g
  | .rename _ n g' => n = some st ∧ g' = g
  | _ => False

/-- The effect of a step on the values in the cache, the time stamps and the queries. -/
inductive StepEff (s s' : Sys) (e : Ev) : Prop
  | same (hv : ∀ t, (s'.entry t).value = (s.entry t).value) (hs : ∀ t, (s'.entry t).stamp = (s.entry t).stamp)
      (hc : s'.cycle = s.cycle ∨ (e = .tick ∧ s'.cycle = s.cycle + 1)) (hq : s'.queries = s.queries)
      (hg : ∀ st g, e = .give st g → g.apply (s.entry st).value = (s.entry st).value ∧ g.stamps (s.entry st).value = false)
  | given (st : Nat) (g : Given) (he : e.delivers s st g)
      (hv : ∀ t, (s'.entry t).value = if t = st then g.apply (s.entry st).value else (s.entry t).value)
      (hs : ∀ t, (s'.entry t).stamp = if t = st ∧ g.stamps (s.entry st).value = true then s.cycle else (s.entry t).stamp)
      (hc : s'.cycle = s.cycle)
      (hq : (s'.queries = s.queries ∧ e = .give st g) ∨
        (s'.queries = (st, s.cycle) :: s.queries ∧ ((s.entry st).value = none ∨ (s.entry st).stamp < s.cycle)))

theorem eff_step {s s' : Sys} {q : Option Nat} {g : Given} {e : Ev} (h : Eff s s' q g)
    (hq : ∀ st, q = some st → e.delivers s st g) (hg : ∀ st g, e ≠ .give st g) : StepEff s s' e := by
  cases q with
  | none =>
    obtain ⟨h1, h2, h3, h4⟩ := h
    exact .same h1 h2 (.inl h3) h4 (fun st g he => absurd he (hg st g))
  | some st =>
    obtain ⟨h1, h2, h3, h4, h5⟩ := h
    exact .given st g (hq st rfl) h2 h3 h4 (.inr ⟨h5, h1⟩)

theorem step_eff (C : Cfg) {s : Sys} (I : Inv C s) (e : Ev) : StepEff s (step C s e) e := by
  have noop : (∀ st g, e ≠ .give st g) → StepEff s s e := fun h =>
    .same (fun _ => rfl) (fun _ => rfl) (.inl rfl) rfl (fun st g he => absurd he (h st g))
  cases e with
  | activate i g =>
    show StepEff s (if _ then _ else _) _
    split
    · exact noop (by simp)
    · next h =>
      obtain ⟨q, hq, hq1, _⟩ := (activate_ac C I g (by simpa using h)).eff
      exact eff_step hq (fun st hst => ⟨by rw [← hq1 (by rw [hst]; simp), hst], rfl⟩) (by simp)
  | deactivate i =>
    show StepEff s (if _ then _ else _) _
    split
    · next h =>
      obtain ⟨_, h2, _⟩ := deactivate_spec C I h
      exact .same h2.value h2.stamp (.inl h2.cycle) h2.queries (by simp)
    · exact noop (by simp)
  | rename i n g =>
    show StepEff s (if _ then _ else _) _
    split
    · exact noop (by simp)
    · next hc =>
      have hc : (s.obj i).const = false := by simpa using hc
      simp only [setObj_obj, if_true]
      split
      · next ha =>
        obtain ⟨_, hor, hq, _⟩ := rename_evt C I n g ha hc
        rcases hor with hn | H
        · obtain ⟨q, hq⟩ := hq
          cases q with
          | none => exact eff_step hq (by simp) (by simp)
          | some st =>
            exfalso
            have e0 : s.setObj i { s.obj i with name := n } = s := by rw [hn]; exact setObj_self s i
            have e1 : handleChangeInternal C s i g = (s, false) := hci_same C g (I.ok i) ha
            have hqq := hq.2.2.2.2
            rw [e0] at hqq
            unfold handleChange at hqq
            rw [e1] at hqq
            dsimp only at hqq
            have hlen : (st, s.cycle) :: s.queries ≠ s.queries := fun h => by
              have := congrArg List.length h; simp at this
            split at hqq
            · next hch =>
              have U := updateInternal_upd C I.toBase i false ha hch
              split at hqq
              · rw [(keep_publish _ _).queries, U.keep.queries] at hqq; exact hlen hqq.symm
              · rw [U.keep.queries] at hqq; exact hlen hqq.symm
            · simp only [Bool.false_eq_true, if_false] at hqq; exact hlen hqq.symm
        · obtain ⟨q, hq, hq1, _⟩ := H.eff
          exact eff_step hq (fun st hst => ⟨by rw [← hq1 (by rw [hst]; simp), hst], rfl⟩) (by simp)
      · exact .same (fun _ => rfl) (fun _ => rfl) (.inl rfl) rfl (by simp)
  | retol i t =>
    show StepEff s (if _ then _ else _) _
    simp only [setObj_obj, if_true]
    split
    · next h =>
      obtain ⟨_, K, _⟩ := retol_evt C I t h.1 h.2
      exact .same K.value K.stamp (.inl K.cycle) K.queries (by simp)
    · exact .same (fun _ => rfl) (fun _ => rfl) (.inl rfl) rfl (by simp)
  | give st g =>
    have G := give_gv C I st g
    exact .given st g ⟨rfl, rfl⟩ G.value G.stamp G.cycle (.inl ⟨G.queries, rfl⟩)
  | tick => exact .same (fun _ => rfl) (fun _ => rfl) (.inr ⟨rfl, rfl⟩) rfl (by simp)

/-- **C46**: the value of a state is what it was last given: giving it a known value makes it known, giving
it an unknown one makes it unknown, and nothing else changes any state's value. -/
theorem c46_value {C : Cfg} {s : Sys} (h : Reach C s) (e : Ev) (st : Nat) :
    (∀ v, e = .give st (.known v) → (step C s e).truth st = some v) ∧
    (e = .give st .unknown ∨ e = .give st .clear → (step C s e).truth st = none) ∧
    ((step C s e).truth st ≠ s.truth st →
      (∃ v, e.delivers s st (.known v) ∧ (step C s e).truth st = some v) ∨
      ((e.delivers s st .unknown ∨ e.delivers s st .clear) ∧ (step C s e).truth st = none)) := by
  have G := fun g => (give_gv C h.inv st g).value st
  refine ⟨fun v he => ?_, fun he => ?_, fun hne => ?_⟩
  · subst he
    show ((give C s st (.known v)).entry st).value.getD none = _
    rw [G, if_pos rfl]; rfl
  · rcases he with he | he
    · subst he
      show ((give C s st .unknown).entry st).value.getD none = _
      rw [G, if_pos rfl]; rfl
    · subst he
      show ((give C s st .clear).entry st).value.getD none = _
      rw [G, if_pos rfl]
      show ((s.entry st).value.map _).getD none = none
      cases (s.entry st).value <;> rfl
  · cases step_eff C h.inv e with
    | same hv => exact absurd (by unfold Sys.truth; rw [hv]) hne
    | given st' g he hv _ _ _ =>
      have ht : (step C s e).truth st = (if st = st' then g.apply (s.entry st').value else (s.entry st).value).getD none := by
        unfold Sys.truth; rw [hv]
      rw [ht] at hne ⊢
      by_cases hst : st = st'
      · subst hst
        simp only [if_true] at hne ⊢
        cases g with
        | nothing => exact absurd rfl hne
        | known v => exact .inl ⟨v, he, rfl⟩
        | unknown => exact .inr ⟨.inl he, rfl⟩
        | clear =>
          refine .inr ⟨.inr he, ?_⟩
          show ((s.entry st).value.map _).getD none = none
          cases (s.entry st).value <;> rfl
      · simp only [if_neg hst] at hne
        exact absurd rfl hne

/-- **C46**: when a lookup is activated, the interface is asked for the state it names and the answer stored,
unless a value for that state has been stored in the current cycle. -/
theorem c46_fresh {C : Cfg} {s : Sys} (h : Reach C s) (i st : Nat) (g : Given) (ha : (s.obj i).active = false)
    (hn : (s.obj i).name = some st) :
    let s' := step C s (.activate i g)
    (s'.queries = (st, s.cycle) :: s.queries ∧ s'.truth st = (g.apply (s.entry st).value).getD none) ∨
    (s'.queries = s.queries ∧ s'.truth st = s.truth st ∧ (s.entry st).value ≠ none ∧ s.cycle ≤ (s.entry st).stamp) := by
  have e : step C s (.activate i g) = activate C s i g := by
    show (if _ then _ else _) = _; rw [ha]; simp
  rw [e]
  obtain ⟨q, hq, hq1, hq2⟩ := (activate_ac C h.inv g ha).eff
  cases q with
  | none =>
    obtain ⟨h1, h2, h3, h4⟩ := hq
    obtain ⟨h5, h6⟩ := hq2 st hn rfl
    exact .inr ⟨h4, by unfold Sys.truth; rw [h1], h5, by omega⟩
  | some st' =>
    have := hq1 (by simp)
    rw [hn] at this; cases this
    obtain ⟨h1, h2, h3, h4, h5⟩ := hq
    exact .inl ⟨h5, by unfold Sys.truth; rw [h2, if_pos rfl]⟩

theorem stamp_le {C : Cfg} {s : Sys} (h : Reach C s) (st : Nat) : (s.entry st).stamp ≤ s.cycle := by
  induction h with
  | init h => rw [h.entry]; exact Nat.zero_le _
  | @step s e hr ih =>
    cases step_eff C hr.inv e with
    | same hv hs hc _ _ => rw [hs]; rcases hc with h | ⟨_, h⟩ <;> omega
    | given st' g _ _ hs hc _ => rw [hs, hc]; split <;> omega

/-- **C46**: once a state's value has changed, no lookup makes the cache ask for it again in the same cycle. -/
theorem c46_asked_once {C : Cfg} {s : Sys} (h : Reach C s) (e : Ev) (st : Nat)
    (hch : ((step C s e).entry st).value ≠ (s.entry st).value) (es : List Ev) (hes : ∀ e' ∈ es, e' ≠ .tick) :
    (runs C (step C s e) es).queries.count (st, s.cycle) = (step C s e).queries.count (st, s.cycle) := by
  have hv0 : ∀ s0 : Sys, Reach C s0 → ∀ e0 st, (s0.entry st).value ≠ none → ((step C s0 e0).entry st).value ≠ none := by
    intro s0 h0 e0 st hne
    cases step_eff C h0.inv e0 with
    | same hv => rw [hv]; exact hne
    | given st' g _ hv =>
      rw [hv]; split
      · next hh =>
        subst hh
        cases g with
        | nothing => exact hne
        | known v => simp [Given.apply]
        | unknown => simp [Given.apply]
        | clear => simpa [Given.apply] using hne
      · exact hne
  have key : ∀ (es : List Ev) (s1 : Sys), Reach C s1 → s1.cycle = s.cycle → (s1.entry st).value ≠ none →
      (s1.entry st).stamp = s1.cycle → (∀ e' ∈ es, e' ≠ .tick) →
      (runs C s1 es).queries.count (st, s.cycle) = s1.queries.count (st, s.cycle) := by
    intro es
    induction es with
    | nil => intros; rfl
    | cons e0 es ih =>
      intro s1 h1 hcy hv hs hnt
      have hR : Reach C (step C s1 e0) := .step e0 h1
      have hne : e0 ≠ .tick := hnt e0 (by simp)
      have hnt' : ∀ e' ∈ es, e' ≠ .tick := by
        exact fun e' hm => hnt e' (List.mem_cons_of_mem _ hm)
      show (runs C (step C s1 e0) es).queries.count _ = _
      have hS := step_eff C h1.inv e0
      have hvv := hv0 s1 h1 e0 st hv
      cases hS with
      | same hv' hs' hc' hq' _ =>
        rcases hc' with hc' | ⟨h, _⟩
        · rw [ih _ hR (hc'.trans hcy) hvv (by rw [hs', hc', hs]) hnt', hq']
        · exact absurd h hne
      | given st' g he hv' hs' hc' hq' =>
        have hst : ((step C s1 e0).entry st).stamp = (step C s1 e0).cycle := by
          rw [hs', hc']; split
          · rfl
          · exact hs
        rw [ih _ hR (hc'.trans hcy) hvv hst hnt']
        rcases hq' with ⟨hq', _⟩ | ⟨hq', hold⟩
        · rw [hq']
        · rw [hq', List.count_cons_of_ne]
          intro heq
          simp only [Prod.mk.injEq] at heq
          rw [heq.1] at hold
          rcases hold with h' | h'
          · exact hv h'
          · omega
  cases step_eff C h.inv e with
  | same hv => exact absurd (hv st) hch
  | given st' g he hv hs hc _ =>
    have hst : st = st' := by
      refine Classical.byContradiction fun hne => hch ?_
      rw [hv, if_neg hne]
    subst hst
    have hch' : g.apply (s.entry st).value ≠ (s.entry st).value := by
      intro he'; apply hch; rw [hv, if_pos rfl]; exact he'
    have hst : g.stamps (s.entry st).value = true := by
      cases g with
      | nothing => exact absurd rfl hch'
      | known v =>
        simp only [Given.stamps, decide_eq_true_eq]
        intro h'; apply hch'; rw [h']; rfl
      | unknown => rfl
      | clear =>
        simp only [Given.stamps, decide_eq_true_eq]
        intro h'; apply hch'; rw [h']; rfl
    refine key es _ (.step e h) hc ?_ ?_ hes
    · rw [hv, if_pos rfl]
      cases g with
      | nothing => exact absurd rfl hch'
      | known v => simp [Given.apply]
      | unknown => simp [Given.apply]
      | clear =>
        intro h'
        simp only [Given.apply, Option.map_eq_none_iff] at h'
        apply hch'; rw [h']; rfl
    · rw [hs, if_pos ⟨rfl, hst⟩, hc]

/-- If the answer is the value already in the cache, the interface may be asked for the same state again in
the same cycle: the time stamp is refreshed only when the value changes (`CachedValueImpl.cc:537-632`). -/
theorem c46_asked_twice : ∃ s, Reach exCfg s ∧ s.queries.count (0, s.cycle) = 2 :=
  ⟨_, exReach [.activate 2 (.known 10), .tick, .activate 3 (.known 10), .activate 4 (.known 10)], by decide⟩

/-- The hypotheses of `c46_asked_once` are met: a lookup's query changed the value, and another lookup is
activated in the same cycle. -/
example : ((step exCfg exSys (.activate 2 (.known 10))).entry 0).value ≠ (exSys.entry 0).value ∧
    (runs exCfg exSys [.activate 2 (.known 10), .activate 3 (.known 11)]).queries = [(0, 1)] ∧
    (runs exCfg exSys [.activate 2 (.known 10), .activate 3 (.known 11)]).value 3 = some 10 := by decide

end Verif.Lookup
