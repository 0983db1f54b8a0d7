import Verif.Lookup.Model

/-! Invariants of the lookup model and how each operation preserves them. -/
namespace Verif.Lookup

@[simp] theorem setObj_obj (s : Sys) (i j : Nat) (o : Obj) :
    (s.setObj i o).obj j = if j = i then o else s.obj j := rfl
@[simp] theorem setObj_entry (s : Sys) (i : Nat) (o : Obj) : (s.setObj i o).entry = s.entry := rfl
@[simp] theorem setObj_cycle (s : Sys) (i : Nat) (o : Obj) : (s.setObj i o).cycle = s.cycle := rfl
@[simp] theorem setObj_published (s : Sys) (i : Nat) (o : Obj) : (s.setObj i o).published = s.published := rfl
@[simp] theorem setObj_queries (s : Sys) (i : Nat) (o : Obj) : (s.setObj i o).queries = s.queries := rfl
@[simp] theorem setObj_crash (s : Sys) (i : Nat) (o : Obj) : (s.setObj i o).crash = s.crash := rfl
@[simp] theorem setObj_iface (s : Sys) (i : Nat) (o : Obj) : (s.setObj i o).iface = s.iface := rfl
@[simp] theorem setEntry_obj (s : Sys) (st : Nat) (e : Entry) : (s.setEntry st e).obj = s.obj := rfl
@[simp] theorem setEntry_entry (s : Sys) (st t : Nat) (e : Entry) :
    (s.setEntry st e).entry t = if t = st then e else s.entry t := rfl
@[simp] theorem setEntry_cycle (s : Sys) (st : Nat) (e : Entry) : (s.setEntry st e).cycle = s.cycle := rfl
@[simp] theorem setEntry_published (s : Sys) (st : Nat) (e : Entry) :
    (s.setEntry st e).published = s.published := rfl
@[simp] theorem setEntry_queries (s : Sys) (st : Nat) (e : Entry) : (s.setEntry st e).queries = s.queries := rfl
@[simp] theorem setEntry_crash (s : Sys) (st : Nat) (e : Entry) : (s.setEntry st e).crash = s.crash := rfl
@[simp] theorem setEntry_iface (s : Sys) (st : Nat) (e : Entry) : (s.setEntry st e).iface = s.iface := rfl

/-- Everything but the lookups, the thresholds and the publications is the same. -/
structure Keep (s s' : Sys) : Prop where
  value : ∀ st, (s'.entry st).value = (s.entry st).value
  stamp : ∀ st, (s'.entry st).stamp = (s.entry st).stamp
  lookups : ∀ st, (s'.entry st).lookups = (s.entry st).lookups
  cycle : s'.cycle = s.cycle
  queries : s'.queries = s.queries

theorem Keep.refl (s : Sys) : Keep s s := ⟨fun _ => rfl, fun _ => rfl, fun _ => rfl, rfl, rfl⟩
theorem Keep.trans {a b c : Sys} (h : Keep a b) (k : Keep b c) : Keep a c :=
  ⟨fun t => (k.value t).trans (h.value t), fun t => (k.stamp t).trans (h.stamp t),
   fun t => (k.lookups t).trans (h.lookups t), k.cycle.trans h.cycle, k.queries.trans h.queries⟩

theorem keep_setObj (s : Sys) (i : Nat) (o : Obj) : Keep s (s.setObj i o) :=
  ⟨fun _ => rfl, fun _ => rfl, fun _ => rfl, rfl, rfl⟩

theorem keep_publish (s : Sys) (i : Nat) : Keep s (s.publish i) := by
  unfold Sys.publish; split <;> exact ⟨fun _ => rfl, fun _ => rfl, fun _ => rfl, rfl, rfl⟩

@[simp] theorem publish_obj (s : Sys) (i : Nat) : (s.publish i).obj = s.obj := by
  unfold Sys.publish; split <;> rfl
@[simp] theorem publish_crash (s : Sys) (i : Nat) : (s.publish i).crash = s.crash := by
  unfold Sys.publish; split <;> rfl

theorem keep_updateThresholds (s : Sys) (st : Nat) : Keep s (updateThresholds s st) := by
  unfold updateThresholds
  dsimp only
  split
  · refine ⟨fun t => ?_, fun t => ?_, fun t => ?_, rfl, rfl⟩ <;>
      (show _ = _; simp only [Sys.setEntry]; split <;> simp_all)
  · split
    · refine ⟨fun t => ?_, fun t => ?_, fun t => ?_, rfl, rfl⟩ <;>
        (show _ = _; simp only [Sys.setEntry]; split <;> simp_all)
    · exact Keep.refl s

@[simp] theorem updateThresholds_obj (s : Sys) (st : Nat) : (updateThresholds s st).obj = s.obj := by
  unfold updateThresholds; dsimp only; split
  · rfl
  · split <;> rfl
@[simp] theorem updateThresholds_published (s : Sys) (st : Nat) :
    (updateThresholds s st).published = s.published := by
  unfold updateThresholds; dsimp only; split
  · rfl
  · split <;> rfl
@[simp] theorem updateThresholds_crash (s : Sys) (st : Nat) :
    (updateThresholds s st).crash = s.crash := by
  unfold updateThresholds; dsimp only; split
  · rfl
  · split <;> rfl

/-! ### Invariants -/

/-- Consistency of one lookup. -/
structure Ok (o : Obj) : Prop where
  act : o.active = true → o.stateKnown = o.name.isSome ∧ o.entry = o.name ∧ o.registered = o.name.isSome ∧
    ∀ st, o.name = some st → o.cachedState = st
  inact : o.active = false → o.registered = false ∧ o.thr = none ∧ (o.const = false → o.entry = none) ∧
    ∀ st, o.entry = some st → o.cachedState = st
  const : o.const = true → o.stateKnown = true ∧ o.name = some o.cachedState
  plain : o.onChange = false → o.thr = none
  pair : o.thr = none → o.cached = none
  shape : ∀ th, o.thr = some th → o.entry.isSome ∧
    ∃ c, o.cached = some c ∧ th.wasKnown = c.isSome ∧ ∀ b, c = some b → th.low = b - th.tol ∧ th.high = b + th.tol

/-- The thresholds of a lookup are those of its current tolerance, and the value in the cache is within them. -/
def Fits (C : Cfg) (s : Sys) (i : Nat) : Prop :=
  ∀ th, (s.obj i).thr = some th → ∀ c, (s.obj i).cached = some c →
    (∃ t, (s.obj i).tol = some t ∧ (c.isSome → th.tol = absTol t)) ∧
    ∀ st v, (s.obj i).entry = some st → (s.entry st).value = some v →
      v = c ∨ (∃ b x, c = some b ∧ v = some x ∧ th.low < x ∧ x < th.high) ∨ (C.kind st = .int ∧ c = none)

/-- The registrations agree with the lookups. -/
structure Reg (s : Sys) : Prop where
  nodup : ∀ st, (s.entry st).lookups.Nodup
  mem : ∀ st i, i ∈ (s.entry st).lookups ↔ (s.obj i).registered = true ∧ (s.obj i).entry = some st

structure Base (s : Sys) : Prop where
  crash : s.crash = false
  ok : ∀ i, Ok (s.obj i)
  reg : Reg s
  val : ∀ i st, (s.obj i).thr ≠ none → (s.obj i).entry = some st → (s.entry st).value ≠ none

structure Inv (C : Cfg) (s : Sys) : Prop extends Base s where
  fits : ∀ i, Fits C s i

theorem absTol_nonneg (t : Int) : 0 ≤ absTol t := by unfold absTol; split <;> omega

/-- What `updateInternal` does to its lookup. -/
structure Upd (C : Cfg) (s s' : Sys) (i : Nat) (b r : Bool) : Prop where
  keep : Keep s s'
  other : ∀ j, j ≠ i → s'.obj j = s.obj j
  same : ∃ th c, s'.obj i = { s.obj i with thr := th, cached := c }
  base : Base s'
  fits : Fits C s' i
  published : s'.published = s.published
  /-- the value read before, if it was cached, changes only if `true` is returned or the tolerance is unknown -/
  quiet : r = false → (s.obj i).thr ≠ none → (s.obj i).tol ≠ none → (s'.obj i).cached = (s.obj i).cached ∧ (s'.obj i).thr ≠ none
  fresh : (s.obj i).thr = none → r = b
  /-- with no thresholds before, the cached value is the current one -/
  init : (s.obj i).thr = none → ∀ st, (s.obj i).entry = some st →
    (s'.obj i).cached = none ∨ (s'.obj i).cached = (s.entry st).value
  unknown : (s.obj i).tol = none → (s'.obj i).thr = none

theorem exceeded_false_real {C : Cfg} {th : Thr} {v : Option Int} (h : exceeded C .real th v = false) :
    (v = none ∧ th.wasKnown = false) ∨ ∃ x, v = some x ∧ th.wasKnown = true ∧ th.low < x ∧ x < th.high := by
  unfold exceeded at h
  cases v with
  | none => exact .inl ⟨rfl, h⟩
  | some x =>
    right
    simp only at h
    split at h
    · exact absurd h (by simp)
    · next hw =>
      simp at h hw
      exact ⟨x, rfl, hw, by omega, by omega⟩

theorem exceeded_false_int {C : Cfg} {th : Thr} {v : Option Int} (h : exceeded C .int th v = false) :
    (v = none ∧ th.wasKnown = false) ∨ ∃ x, v = some x ∧ th.low < x ∧ x < th.high := by
  unfold exceeded at h
  cases v with
  | none => exact .inl ⟨rfl, h⟩
  | some x =>
    right
    simp at h
    exact ⟨x, rfl, by omega, by omega⟩

/-- Changing only the thresholds and the cached value of an active lookup keeps the registrations. -/
theorem base_setThr {s : Sys} (B : Base s) {s' : Sys} (i : Nat) {th : Option Thr} {c : Option (Option Int)}
    (K : Keep s s') (hc : s'.crash = s.crash) (ho : ∀ j, j ≠ i → s'.obj j = s.obj j)
    (hi : s'.obj i = { s.obj i with thr := th, cached := c })
    (ha : (s.obj i).active = true) (hch : (s.obj i).onChange = true)
    (hp : th = none → c = none)
    (hs : ∀ t, th = some t → ((s.obj i).entry.isSome ∧
      ∃ c', c = some c' ∧ t.wasKnown = c'.isSome ∧ ∀ b, c' = some b → t.low = b - t.tol ∧ t.high = b + t.tol))
    (hv : ∀ st, th ≠ none → (s.obj i).entry = some st → (s.entry st).value ≠ none) : Base s' := by
  refine ⟨hc.trans B.crash, fun j => ?_, ⟨fun st => ?_, fun st j => ?_⟩, fun j st h1 h2 => ?_⟩
  · by_cases h : j = i
    · subst h
      have O := B.ok j
      rw [hi]
      refine ⟨O.act, fun h => ?_, O.const, fun h => ?_, hp, hs⟩
      · exact absurd ha (by simp only at h; rw [h]; decide)
      · exact absurd hch (by simp only at h; rw [h]; decide)
    · rw [ho j h]; exact B.ok j
  · rw [K.lookups]; exact B.reg.nodup st
  · rw [K.lookups, B.reg.mem st j]
    by_cases h : j = i
    · subst h; rw [hi]
    · rw [ho j h]
  · rw [K.value]
    by_cases h : j = i
    · subst h; rw [hi] at h1 h2; exact hv st h1 h2
    · rw [ho j h] at h1 h2; exact B.val j st h1 h2

theorem updateInternal_known (C : Cfg) (s : Sys) (i : Nat) (b : Bool) {th : Thr} {st : Nat} {t : Int} {val : Option Int}
    (hthr : (s.obj i).thr = some th) (hst : (s.obj i).entry = some st) (htol : (s.obj i).tol = some t)
    (hval : (s.entry st).value = some val) {th' : Thr}
    (hth' : (if toleranceChanged th t = true then setThresholds th ((s.obj i).cached.getD none) t else th) = th') :
    updateInternal C s i b =
      if exceeded C (C.kind st) th' val then
        (updateThresholds (s.setObj i { s.obj i with cached := some val, thr := some (setThresholds th' val t) }) st, true)
      else (s.setObj i { s.obj i with thr := some th' }, false) := by
  unfold updateInternal
  simp only [hthr, hst, htol, hval, hth']

theorem updateInternal_lost (C : Cfg) (s : Sys) (i : Nat) (b : Bool) {th : Thr} {st : Nat}
    (hthr : (s.obj i).thr = some th) (hst : (s.obj i).entry = some st) (htol : (s.obj i).tol = none) :
    updateInternal C s i b =
      (updateThresholds (s.setObj i { s.obj i with thr := none, cached := none }) st, b) := by
  unfold updateInternal
  simp only [hthr, hst, htol]

theorem updateInternal_new (C : Cfg) (s : Sys) (i : Nat) (b : Bool) {st : Nat} {t v : Int}
    (hthr : (s.obj i).thr = none) (hst : (s.obj i).entry = some st) (htol : (s.obj i).tol = some t)
    (hval : (s.entry st).value = some (some v)) :
    updateInternal C s i b =
      (updateThresholds (s.setObj i { s.obj i with
        cached := some (some v), thr := some (setThresholds ⟨0, 0, 0, false⟩ (some v) t) }) st, b) := by
  unfold updateInternal
  simp only [hthr, hst, htol, hval]

theorem updateInternal_none (C : Cfg) (s : Sys) (i : Nat) (b : Bool) (hthr : (s.obj i).thr = none)
    (h : ¬ ∃ st t v, (s.obj i).entry = some st ∧ (s.obj i).tol = some t ∧ (s.entry st).value = some (some v)) :
    updateInternal C s i b = (s, b) := by
  unfold updateInternal
  simp only [hthr]
  split
  · next st t h1 h2 =>
    split
    · next v h3 => exact absurd ⟨st, t, v, h1, h2, h3⟩ h
    · rfl
  · rfl

theorem updateInternal_upd (C : Cfg) {s : Sys} (B : Base s) (i : Nat) (b : Bool)
    (ha : (s.obj i).active = true) (hch : (s.obj i).onChange = true) :
    Upd C s (updateInternal C s i b).1 i b (updateInternal C s i b).2 := by
  have O := B.ok i
  cases hthr : (s.obj i).thr with
  | some th =>
    obtain ⟨hent, c, hc, hw, hband⟩ := O.shape th hthr
    obtain ⟨st, hst⟩ := Option.isSome_iff_exists.1 hent
    obtain ⟨val, hval⟩ := Option.ne_none_iff_exists'.1 (B.val i st (by rw [hthr]; simp) hst)
    cases htol : (s.obj i).tol with
    | some t =>
      -- the thresholds after the check of the tolerance
      generalize hth' : (if toleranceChanged th t = true then setThresholds th ((s.obj i).cached.getD none) t else th) = th'
      have hw' : th'.wasKnown = c.isSome ∧
          ∀ b, c = some b → th'.low = b - th'.tol ∧ th'.high = b + th'.tol ∧ th'.tol = absTol t := by
        rw [← hth', hc]
        simp only [Option.getD_some]
        by_cases htc : toleranceChanged th t = true
        · rw [if_pos htc]
          cases c with
          | none => exact ⟨rfl, by simp⟩
          | some b => exact ⟨rfl, by intro b' hb'; cases hb'; exact ⟨rfl, rfl, rfl⟩⟩
        · rw [if_neg htc]
          refine ⟨hw, fun b hb => ⟨(hband b hb).1, (hband b hb).2, ?_⟩⟩
          simp only [toleranceChanged, decide_eq_true_eq, Decidable.not_not] at htc
          exact htc.symm
      rw [updateInternal_known C s i b hthr hst htol hval hth']
      split
      · next hex =>
        have hs' : ∃ th'', setThresholds th' val t = th'' ∧ th''.wasKnown = val.isSome ∧
            ∀ b, val = some b → th''.low = b - th''.tol ∧ th''.high = b + th''.tol ∧ th''.tol = absTol t := by
          refine ⟨_, rfl, ?_, ?_⟩
          · cases val <;> rfl
          · intro b hb; subst hb; exact ⟨rfl, rfl, rfl⟩
        obtain ⟨th'', e'', hw'', hb''⟩ := hs'
        rw [e'']
        have K : Keep s (updateThresholds (s.setObj i { s.obj i with cached := some val, thr := some th'' }) st) :=
          (keep_setObj _ _ _).trans (keep_updateThresholds _ _)
        have hI : (updateThresholds (s.setObj i { s.obj i with cached := some val, thr := some th'' }) st).obj i
          = { s.obj i with thr := some th'', cached := some val } := by simp
        refine ⟨K, fun j hj => by simp [hj], ⟨_, _, hI⟩, ?_, ?_, by simp, by simp, ?_, ?_, ?_⟩
        · refine base_setThr B i K (by simp) (fun j hj => by simp [hj]) hI ha hch (by simp) ?_ ?_
          · intro t' rfl'
            cases rfl'
            exact ⟨hent, val, rfl, hw'', fun b hb => ⟨(hb'' b hb).1, (hb'' b hb).2.1⟩⟩
          · intro st' _ h; rw [hst] at h; cases h; rw [hval]; simp
        · intro a h1 c' h2
          rw [hI] at h1 h2
          simp only at h1 h2
          cases h1; cases h2
          refine ⟨⟨t, by rw [hI]; exact htol, ?_⟩, ?_⟩
          · intro h; obtain ⟨b, hb⟩ := Option.isSome_iff_exists.1 h; exact (hb'' b hb).2.2
          · intro st' v h3 h4
            rw [hI] at h3
            simp only at h3
            rw [hst] at h3; cases h3
            rw [K.value, hval] at h4
            cases h4; exact .inl rfl
        · intro h; simp [hthr] at h
        · intro h; simp [hthr] at h
        · intro h; simp [htol] at h
      · next hex =>
        have K : Keep s (s.setObj i { s.obj i with thr := some th' }) := keep_setObj _ _ _
        have hI : (s.setObj i { s.obj i with thr := some th' }).obj i
          = { s.obj i with thr := some th', cached := some c } := by simp [← hc]
        refine ⟨K, fun j hj => by simp [hj], ⟨_, _, hI⟩, ?_, ?_, rfl, ?_, ?_, ?_, ?_⟩
        · refine base_setThr B i K rfl (fun j hj => by simp [hj]) hI ha hch (by simp) ?_ ?_
          · intro t' ht'
            cases ht'
            exact ⟨hent, c, rfl, hw'.1, fun b hb => ⟨(hw'.2 b hb).1, (hw'.2 b hb).2.1⟩⟩
          · intro st' _ h; rw [hst] at h; cases h; rw [hval]; simp
        · intro a h1 c' h2
          rw [hI] at h1 h2
          simp only at h1 h2
          cases h1; cases h2
          refine ⟨⟨t, by rw [hI]; exact htol, ?_⟩, ?_⟩
          · intro h; obtain ⟨b, hb⟩ := Option.isSome_iff_exists.1 h; exact (hw'.2 b hb).2.2
          · intro st' v h3 h4
            rw [hI] at h3
            simp only at h3
            rw [hst] at h3; cases h3
            rw [K.value, hval] at h4
            cases h4
            have hex : exceeded C (C.kind st) th' val = false := by simpa using hex
            cases hk : C.kind st with
            | real =>
              rw [hk] at hex
              rcases exceeded_false_real hex with ⟨h, hw0⟩ | ⟨x, h, hw1, hlo, hhi⟩
              · rw [hw'.1] at hw0
                cases c with
                | none => exact .inl h
                | some _ => simp at hw0
              · rw [hw'.1] at hw1
                obtain ⟨b, hb⟩ := Option.isSome_iff_exists.1 hw1
                exact .inr (.inl ⟨b, x, hb, h, hlo, hhi⟩)
            | int =>
              rw [hk] at hex
              cases hc0 : c with
              | none => exact .inr (.inr ⟨rfl, rfl⟩)
              | some b =>
                rcases exceeded_false_int hex with ⟨h, hw0⟩ | ⟨x, h, hlo, hhi⟩
                · rw [hw'.1, hc0] at hw0; simp at hw0
                · exact .inr (.inl ⟨b, x, rfl, h, hlo, hhi⟩)
        · intro _ _ _; rw [hI]; exact ⟨hc.symm, by simp⟩
        · intro h; simp [hthr] at h
        · intro h; simp [hthr] at h
        · intro h; simp [htol] at h
    | none =>
      rw [updateInternal_lost C s i b hthr hst htol]
      have K : Keep s (updateThresholds (s.setObj i { s.obj i with thr := none, cached := none }) st) :=
        (keep_setObj _ _ _).trans (keep_updateThresholds _ _)
      have hI : (updateThresholds (s.setObj i { s.obj i with thr := none, cached := none }) st).obj i
        = { s.obj i with thr := none, cached := none } := by simp
      refine ⟨K, fun j hj => by simp [hj], ⟨_, _, hI⟩, ?_, ?_, by simp, ?_, ?_, ?_, ?_⟩
      · exact base_setThr B i K (by simp) (fun j hj => by simp [hj]) hI ha hch (by simp) (by simp) (by simp)
      · intro a h1; rw [hI] at h1; simp at h1
      · intro _ _ h; simp [htol] at h
      · intro h; simp [hthr] at h
      · intro h; simp [hthr] at h
      · intro _; rw [hI]
  | none =>
    have hcn := O.pair hthr
    have noop : Upd C s s i b b := by
      refine ⟨Keep.refl s, fun _ _ => rfl, ⟨(s.obj i).thr, (s.obj i).cached, rfl⟩, B, ?_, rfl, ?_, fun _ => rfl, ?_, ?_⟩
      · intro th h; rw [hthr] at h; simp at h
      · intro _ h; rw [hthr] at h; exact absurd rfl h
      · intro _ st _; exact .inl hcn
      · intro _; exact hthr
    by_cases hex : ∃ st t v, (s.obj i).entry = some st ∧ (s.obj i).tol = some t ∧ (s.entry st).value = some (some v)
    · obtain ⟨st, t, v, hst, htol, hv⟩ := hex
      · rw [updateInternal_new C s i b hthr hst htol hv]
        generalize hT : setThresholds ⟨0, 0, 0, false⟩ (some v) t = th''
        have hb'' : th''.low = v - th''.tol ∧ th''.high = v + th''.tol ∧ th''.tol = absTol t ∧ th''.wasKnown = true := by
          rw [← hT]; exact ⟨rfl, rfl, rfl, rfl⟩
        have K : Keep s (updateThresholds (s.setObj i { s.obj i with cached := some (some v), thr := some th'' }) st) :=
          (keep_setObj _ _ _).trans (keep_updateThresholds _ _)
        have hI : (updateThresholds (s.setObj i { s.obj i with cached := some (some v), thr := some th'' }) st).obj i
          = { s.obj i with thr := some th'', cached := some (some v) } := by simp
        refine ⟨K, fun j hj => by simp [hj], ⟨_, _, hI⟩, ?_, ?_, by simp, ?_, fun _ => rfl, ?_, ?_⟩
        · refine base_setThr B i K (by simp) (fun j hj => by simp [hj]) hI ha hch (by simp) ?_ ?_
          · intro t' ht'
            cases ht'
            refine ⟨by rw [hst]; rfl, some v, rfl, hb''.2.2.2, fun b hb => ?_⟩
            cases hb; exact ⟨hb''.1, hb''.2.1⟩
          · intro st' _ h; rw [hst] at h; cases h; rw [hv]; simp
        · intro a h1 c' h2
          rw [hI] at h1 h2
          simp only at h1 h2
          cases h1; cases h2
          refine ⟨⟨t, by rw [hI]; exact htol, fun _ => hb''.2.2.1⟩, ?_⟩
          intro st' v' h3 h4
          rw [hI] at h3
          simp only at h3
          rw [hst] at h3; cases h3
          rw [K.value, hv] at h4
          cases h4; exact .inl rfl
        · intro _ h; rw [hthr] at h; exact absurd rfl h
        · intro _ st' h; rw [hst] at h; cases h; rw [hI, hv]; exact .inr rfl
        · intro h; rw [htol] at h; simp at h
    · rw [updateInternal_none C s i b hthr hex]; exact noop

/-! ### Value changes -/

theorem publish_spec (s : Sys) (i : Nat) (h : (s.obj i).active = true) : (s.publish i).published = i :: s.published := by
  unfold Sys.publish; rw [if_pos h]

theorem publish_sfx (s : Sys) (i : Nat) : ∃ new, (s.publish i).published = new ++ s.published := by
  unfold Sys.publish; split
  · exact ⟨[i], rfl⟩
  · exact ⟨[], rfl⟩

/-- A change of the publications and of nothing else. -/
structure Eqv (s s' : Sys) : Prop where
  obj : s'.obj = s.obj
  keep : Keep s s'
  crash : s'.crash = s.crash

theorem eqv_publish (s : Sys) (i : Nat) : Eqv s (s.publish i) :=
  ⟨publish_obj s i, keep_publish s i, publish_crash s i⟩

theorem Base.eqv {s s' : Sys} (B : Base s) (E : Eqv s s') : Base s' := by
  refine ⟨E.crash.trans B.crash, fun i => by rw [E.obj]; exact B.ok i, ⟨fun st => ?_, fun st i => ?_⟩, fun i st => ?_⟩
  · rw [E.keep.lookups]; exact B.reg.nodup st
  · rw [E.keep.lookups, E.obj]; exact B.reg.mem st i
  · rw [E.keep.value, E.obj]; exact B.val i st

theorem Fits.of {C : Cfg} {s s' : Sys} {i : Nat} (F : Fits C s i) (ho : s'.obj i = s.obj i)
    (hv : ∀ st, (s.obj i).entry = some st → (s'.entry st).value = (s.entry st).value) : Fits C s' i := by
  intro th h1 c h2
  rw [ho] at h1 h2 ⊢
  refine ⟨(F th h1 c h2).1, fun st v h3 h4 => ?_⟩
  rw [hv st h3] at h4
  exact (F th h1 c h2).2 st v h3 h4

theorem fits_of_none {C : Cfg} {s : Sys} {i : Nat} (h : (s.obj i).thr = none) : Fits C s i := by
  intro th h1; rw [h] at h1; simp at h1

theorem Inv.eqv {C : Cfg} {s s' : Sys} (I : Inv C s) (E : Eqv s s') : Inv C s' :=
  ⟨I.toBase.eqv E, fun i => (I.fits i).of (by rw [E.obj]) (fun st _ => E.keep.value st)⟩

/-- What being told of a value change does. -/
structure VC (C : Cfg) (s s' : Sys) (i : Nat) : Prop where
  keep : Keep s s'
  other : ∀ j, j ≠ i → s'.obj j = s.obj j
  same : ∃ th c, s'.obj i = { s.obj i with thr := th, cached := c }
  base : Base s'
  fits : Fits C s' i
  told : ∃ new, s'.published = new ++ s.published ∧
    (i ∈ new ∨ ((s.obj i).thr ≠ none ∧ (s'.obj i).cached = (s.obj i).cached ∧ (s'.obj i).thr ≠ none))

theorem valueChanged_vc (C : Cfg) {s : Sys} (B : Base s) (i : Nat) (ha : (s.obj i).active = true)
    (ht : (s.obj i).thr ≠ none → (s.obj i).tol ≠ none) : VC C s (valueChanged C s i) i := by
  unfold valueChanged
  by_cases hch : (s.obj i).onChange = true
  · rw [if_pos hch, if_pos ha]
    have U := updateInternal_upd C B i true ha hch
    generalize updateInternal C s i true = r at U
    dsimp only
    obtain ⟨th, c, hI⟩ := U.same
    split
    · next hr =>
      have E := eqv_publish r.1 i
      refine ⟨U.keep.trans E.keep, fun j hj => by rw [E.obj]; exact U.other j hj, ⟨th, c, by rw [E.obj]; exact hI⟩,
        U.base.eqv E, U.fits.of (by rw [E.obj]) (fun st _ => E.keep.value st), [i], ?_, .inl (by simp)⟩
      rw [publish_spec _ _ (by rw [hI]; exact ha), U.published]; rfl
    · next hr =>
      have hr : r.2 = false := by simpa using hr
      refine ⟨U.keep, U.other, U.same, U.base, U.fits, [], U.published, ?_⟩
      by_cases h : (s.obj i).thr = none
      · exact absurd (U.fresh h) (by rw [hr]; decide)
      · exact .inr ⟨h, U.quiet hr h (ht h)⟩
  · rw [if_neg hch]
    have E := eqv_publish s i
    refine ⟨E.keep, fun j _ => by rw [E.obj], ⟨(s.obj i).thr, (s.obj i).cached, by rw [E.obj]⟩, B.eqv E, ?_, [i], ?_, .inl (by simp)⟩
    · exact fits_of_none (by rw [E.obj]; exact (B.ok i).plain (by simpa using hch))
    · rw [publish_spec _ _ ha]; rfl

/-- What telling each of a list of lookups does. -/
structure NA (C : Cfg) (s s' : Sys) (l : List Nat) : Prop where
  keep : Keep s s'
  other : ∀ j, j ∉ l → s'.obj j = s.obj j
  same : ∀ j, ∃ th c, s'.obj j = { s.obj j with thr := th, cached := c }
  base : Base s'
  fits : ∀ j ∈ l, Fits C s' j
  told : ∃ new, s'.published = new ++ s.published ∧
    ∀ j ∈ l, j ∈ new ∨ ((s.obj j).thr ≠ none ∧ (s'.obj j).cached = (s.obj j).cached ∧ (s'.obj j).thr ≠ none)

theorem notifyAll_na (C : Cfg) (l : List Nat) : ∀ {s : Sys}, Base s → l.Nodup →
    (∀ i ∈ l, (s.obj i).active = true ∧ ((s.obj i).thr ≠ none → (s.obj i).tol ≠ none)) →
    NA C s (notifyAll C s l) l := by
  induction l with
  | nil =>
    intro s B _ _
    exact ⟨Keep.refl s, fun _ _ => rfl, fun j => ⟨(s.obj j).thr, (s.obj j).cached, rfl⟩, B, by simp, [], rfl, by simp⟩
  | cons i l ih =>
    intro s B hn hl
    obtain ⟨hni, hn⟩ := List.nodup_cons.1 hn
    have V := valueChanged_vc C B i (hl i (by simp)).1 (hl i (by simp)).2
    have hne : ∀ j ∈ l, j ≠ i := fun j hj e => hni (e ▸ hj)
    have R := ih V.base hn (fun j hj => by
      rw [V.other j (hne j hj)]; exact hl j (List.mem_cons_of_mem _ hj))
    show NA C s (notifyAll C (valueChanged C s i) l) (i :: l)
    generalize notifyAll C (valueChanged C s i) l = s2 at R
    generalize valueChanged C s i = s1 at V R
    refine ⟨V.keep.trans R.keep, fun j hj => ?_, fun j => ?_, R.base, fun j hj => ?_, ?_⟩
    · rw [R.other j (fun h => hj (List.mem_cons_of_mem _ h)), V.other j (fun h => hj (h ▸ List.mem_cons_self))]
    · obtain ⟨th, c, h⟩ := R.same j
      by_cases hji : j = i
      · subst hji
        obtain ⟨th', c', h'⟩ := V.same
        rw [h'] at h; exact ⟨th, c, h⟩
      · rw [V.other j hji] at h; exact ⟨th, c, h⟩
    · rcases List.mem_cons.1 hj with h | h
      · subst h
        exact V.fits.of (R.other j hni) (fun st _ => R.keep.value st)
      · exact R.fits j h
    · obtain ⟨n1, e1, h1⟩ := V.told
      obtain ⟨n2, e2, h2⟩ := R.told
      refine ⟨n2 ++ n1, by rw [e2, e1, List.append_assoc], fun j hj => ?_⟩
      rcases List.mem_cons.1 hj with h | h
      · subst h
        rw [R.other j hni]
        rcases h1 with h1 | h1
        · exact .inl (List.mem_append_right _ h1)
        · exact .inr h1
      · rw [← V.other j (hne j h)]
        rcases h2 j h with h2 | h2
        · exact .inl (List.mem_append_left _ h2)
        · exact .inr h2

/-- The value of an entry after it has been given something: specification of `give`. -/
def Given.apply (g : Given) (old : Option (Option Int)) : Option (Option Int) :=
  match g with
  | .nothing => old
  | .known v => some (some v)
  | .unknown => some none
  | .clear => old.map (fun _ => none)

/-- Does giving this refresh the time stamp? -/
def Given.stamps (g : Given) (old : Option (Option Int)) : Bool :=
  match g with
  | .nothing => false
  | .known v => decide (old ≠ some (some v))
  | .unknown => true
  | .clear => decide (old ≠ none)

/-- What giving a state a value does. -/
structure Gv (C : Cfg) (s s' : Sys) (st : Nat) (g : Given) : Prop where
  value : ∀ t, (s'.entry t).value = if t = st then g.apply (s.entry st).value else (s.entry t).value
  stamp : ∀ t, (s'.entry t).stamp =
    if t = st ∧ g.stamps (s.entry st).value = true then s.cycle else (s.entry t).stamp
  lookups : ∀ t, (s'.entry t).lookups = (s.entry t).lookups
  cycle : s'.cycle = s.cycle
  queries : s'.queries = s.queries
  same : ∀ j, ∃ th c, s'.obj j = { s.obj j with thr := th, cached := c }
  inv : Inv C s'
  told : ∃ new, s'.published = new ++ s.published ∧ ∀ j,
    (s'.value j ≠ s.value j → j ∈ new) ∧ ((s.obj j).thr = none → (s'.obj j).thr ≠ none → j ∈ new)

theorem Inv.tol {C : Cfg} {s : Sys} (I : Inv C s) (i : Nat) (h : (s.obj i).thr ≠ none) : (s.obj i).tol ≠ none := by
  obtain ⟨th, hth⟩ := Option.ne_none_iff_exists'.1 h
  obtain ⟨_, c, hc, _⟩ := (I.ok i).shape th hth
  obtain ⟨⟨t, ht, _⟩, _⟩ := I.fits i th hth c hc
  rw [ht]; simp

theorem Base.thr_active {s : Sys} (B : Base s) (i : Nat) (h : (s.obj i).thr ≠ none) :
    (s.obj i).active = true ∧ ∃ st, (s.obj i).entry = some st ∧ i ∈ (s.entry st).lookups := by
  have O := B.ok i
  have ha : (s.obj i).active = true := by
    cases ha : (s.obj i).active with
    | true => rfl
    | false => exact absurd (O.inact ha).2.1 h
  refine ⟨ha, ?_⟩
  obtain ⟨th, hth⟩ := Option.ne_none_iff_exists'.1 h
  obtain ⟨st, hst⟩ := Option.isSome_iff_exists.1 (O.shape th hth).1
  refine ⟨st, hst, (B.reg.mem st i).2 ⟨?_, hst⟩⟩
  obtain ⟨_, he, hr, _⟩ := O.act ha
  rw [hr, ← he, hst]; rfl

theorem Base.mem_active {s : Sys} (B : Base s) {i st : Nat} (h : i ∈ (s.entry st).lookups) :
    (s.obj i).active = true ∧ (s.obj i).entry = some st := by
  obtain ⟨hr, he⟩ := (B.reg.mem st i).1 h
  refine ⟨?_, he⟩
  cases ha : (s.obj i).active with
  | true => rfl
  | false => rw [((B.ok i).inact ha).1] at hr; simp at hr

/-- Storing a known or unknown value in an entry, without telling anybody. -/
theorem base_setValue {s : Sys} (B : Base s) (st : Nat) (e : Entry) (hl : e.lookups = (s.entry st).lookups)
    (hv : e.value ≠ none) : Base (s.setEntry st e) := by
  refine ⟨B.crash, B.ok, ⟨fun t => ?_, fun t i => ?_⟩, fun i t h1 h2 => ?_⟩
  · simp only [setEntry_entry]; split
    · next h => rw [hl]; exact B.reg.nodup st
    · exact B.reg.nodup t
  · simp only [setEntry_entry, setEntry_obj]; split
    · next h => subst h; rw [hl]; exact B.reg.mem t i
    · exact B.reg.mem t i
  · simp only [setEntry_entry]; split
    · exact hv
    · exact B.val i t h1 h2

theorem value_of_thr {C : Cfg} {s s' : Sys} (I : Inv C s) (B' : Base s') (j : Nat)
    (hs : ∃ th c, s'.obj j = { s.obj j with thr := th, cached := c })
    (h : (s.obj j).thr ≠ none ∧ (s'.obj j).cached = (s.obj j).cached ∧ (s'.obj j).thr ≠ none) :
    s'.value j = s.value j := by
  obtain ⟨h1, h2, h3⟩ := h
  obtain ⟨ha, st, he, _⟩ := I.toBase.thr_active j h1
  obtain ⟨th, hth⟩ := Option.ne_none_iff_exists'.1 h1
  obtain ⟨_, c, hc, _⟩ := (I.ok j).shape th hth
  have hch : (s.obj j).onChange = true := by
    cases hch : (s.obj j).onChange with
    | true => rfl
    | false => exact absurd ((I.ok j).plain hch) h1
  obtain ⟨th', c', hI⟩ := hs
  obtain ⟨v, hv⟩ := Option.ne_none_iff_exists'.1 (I.val j st h1 he)
  obtain ⟨v', hv'⟩ := Option.ne_none_iff_exists'.1 (B'.val j st h3 (by rw [hI]; exact he))
  have ha' : (s'.obj j).active = true := by rw [hI]; exact ha
  have he' : (s'.obj j).entry = some st := by rw [hI]; exact he
  have hch' : (s'.obj j).onChange = true := by rw [hI]; exact hch
  unfold Sys.value
  simp only [ha, ha', he, he', hv, hv', hch, hch', h2, hc, if_true, Option.getD_some]

/-- A lookup's reported value depends only on the lookup and the value of its entry. -/
theorem value_congr {s s' : Sys} {j : Nat} (ho : s'.obj j = s.obj j)
    (hv : ∀ st, (s.obj j).active = true → (s.obj j).entry = some st →
      ((s'.entry st).value = (s.entry st).value ∨ ((s'.entry st).value = some none ∧ (s.entry st).value = none ∧ (s.obj j).thr = none)))
    (hp : (s.obj j).thr = none → (s.obj j).cached = none) :
    s'.value j = s.value j := by
  unfold Sys.value
  simp only [ho]
  cases ha : (s.obj j).active with
  | false => rfl
  | true =>
    cases he : (s.obj j).entry with
    | none => rfl
    | some st =>
      simp only
      rcases hv st ha he with h | ⟨h, h', ht⟩
      · rw [h]
      · rw [h, h', hp ht]
        simp

theorem give_gv (C : Cfg) {s : Sys} (I : Inv C s) (st : Nat) (g : Given) : Gv C s (give C s st g) st g := by
  -- the case in which every lookup is told
  have tell : ∀ v : Option Int, ∀ s' : Sys, s' = notifyAll C (s.setEntry st { s.entry st with value := some v, stamp := s.cycle }) (s.entry st).lookups →
      (∀ t, (s'.entry t).value = if t = st then some v else (s.entry t).value) ∧
      (∀ t, (s'.entry t).stamp = if t = st then s.cycle else (s.entry t).stamp) ∧
      (∀ t, (s'.entry t).lookups = (s.entry t).lookups) ∧ s'.cycle = s.cycle ∧ s'.queries = s.queries ∧
      (∀ j, ∃ th c, s'.obj j = { s.obj j with thr := th, cached := c }) ∧ Inv C s' ∧
      ∃ new, s'.published = new ++ s.published ∧ ∀ j,
        (s'.value j ≠ s.value j → j ∈ new) ∧ ((s.obj j).thr = none → (s'.obj j).thr ≠ none → j ∈ new) := by
    rintro v s' rfl
    have B := base_setValue I.toBase st { s.entry st with value := some v, stamp := s.cycle } rfl (by simp)
    have N := notifyAll_na C (s.entry st).lookups B (I.reg.nodup st) (fun i hi =>
      ⟨(I.toBase.mem_active hi).1, I.tol i⟩)
    generalize notifyAll C _ (s.entry st).lookups = s2 at N
    have hval : ∀ t, (s2.entry t).value = if t = st then some v else (s.entry t).value := by
      intro t; rw [N.keep.value]; simp only [setEntry_entry]; split <;> rfl
    refine ⟨hval, ?_, ?_, N.keep.cycle, N.keep.queries, N.same, ⟨N.base, fun j => ?_⟩, ?_⟩
    · intro t; rw [N.keep.stamp]; simp only [setEntry_entry]; split <;> rfl
    · intro t; rw [N.keep.lookups]; simp only [setEntry_entry]; split
      · next h => rw [h]
      · rfl
    · by_cases hj : j ∈ (s.entry st).lookups
      · exact N.fits j hj
      · by_cases hn : (s.obj j).thr = none
        · exact fits_of_none (by rw [N.other j hj]; exact hn)
        · refine (I.fits j).of (N.other j hj) (fun t ht => ?_)
          rw [hval t]
          split
          · next h =>
            subst h
            obtain ⟨_, t', ht', hm⟩ := I.toBase.thr_active j hn
            rw [ht] at ht'; cases ht'
            exact absurd hm hj
          · rfl
    · obtain ⟨new, hp, hn⟩ := N.told
      refine ⟨new, hp, fun j => ?_⟩
      by_cases hj : j ∈ (s.entry st).lookups
      · rcases hn j hj with h | h
        · exact ⟨fun _ => h, fun _ _ => h⟩
        · refine ⟨fun hne => absurd (value_of_thr I N.base j (N.same j) h) hne, fun h1 => absurd h1 h.1⟩
      · have ho : s2.obj j = s.obj j := N.other j hj
        refine ⟨fun hne => absurd (value_congr ho (fun t ha ht => ?_) (I.ok j).pair) hne,
          fun h1 h2 => absurd h1 (by rw [← ho]; exact h2)⟩
        left
        rw [hval t]
        split
        · next h =>
          subst h
          obtain ⟨_, he, hr, _⟩ := (I.ok j).act ha
          exact absurd ((I.reg.mem t j).2 ⟨by rw [hr, ← he, ht]; rfl, ht⟩) hj
        · rfl
  -- the case in which an unknown value stays unknown
  have quiet : ∀ s' : Sys, s' = s.setEntry st { s.entry st with value := some none, stamp := s.cycle } →
      ((s.entry st).value = none ∨ (s.entry st).value = some none) →
      (∀ t, (s'.entry t).value = if t = st then some none else (s.entry t).value) ∧
      (∀ t, (s'.entry t).stamp = if t = st then s.cycle else (s.entry t).stamp) ∧
      (∀ t, (s'.entry t).lookups = (s.entry t).lookups) ∧ s'.cycle = s.cycle ∧ s'.queries = s.queries ∧
      (∀ j, ∃ th c, s'.obj j = { s.obj j with thr := th, cached := c }) ∧ Inv C s' ∧
      ∃ new, s'.published = new ++ s.published ∧ ∀ j,
        (s'.value j ≠ s.value j → j ∈ new) ∧ ((s.obj j).thr = none → (s'.obj j).thr ≠ none → j ∈ new) := by
    rintro s' rfl hold
    have B := base_setValue I.toBase st { s.entry st with value := some none, stamp := s.cycle } rfl (by simp)
    have hv : ∀ j t, (s.obj j).entry = some t → (((s.setEntry st { s.entry st with value := some none, stamp := s.cycle }).entry t).value
        = (s.entry t).value ∨ (((s.setEntry st { s.entry st with value := some none, stamp := s.cycle }).entry t).value = some none ∧
          (s.entry t).value = none ∧ (s.obj j).thr = none)) := by
      intro j t ht
      simp only [setEntry_entry]
      split
      · next h =>
        subst h
        rcases hold with h | h
        · right
          refine ⟨rfl, h, ?_⟩
          cases hn : (s.obj j).thr with
          | none => rfl
          | some th => exact absurd h (I.val j t (by rw [hn]; simp) ht)
        · left; exact h.symm
      · exact .inl rfl
    refine ⟨?_, ?_, ?_, rfl, rfl, fun j => ⟨(s.obj j).thr, (s.obj j).cached, rfl⟩, ⟨B, fun j => ?_⟩, [], rfl, fun j => ?_⟩
    · intro t; simp only [setEntry_entry]; split <;> rfl
    · intro t; simp only [setEntry_entry]; split <;> rfl
    · intro t; simp only [setEntry_entry]; split
      · next h => rw [h]
      · rfl
    · by_cases hn : (s.obj j).thr = none
      · exact fits_of_none hn
      · refine (I.fits j).of rfl (fun t ht => ?_)
        rcases hv j t ht with h | h
        · exact h
        · exact absurd h.2.2 hn
    · exact ⟨fun hne => absurd (value_congr (s := s) (s' := s.setEntry st { s.entry st with value := some none, stamp := s.cycle }) rfl (fun t _ ht => hv j t ht) (I.ok j).pair) hne, fun h1 h2 => absurd h1 h2⟩
  have noop : Gv C s s st .nothing := by
    refine ⟨fun t => ?_, fun t => ?_, fun _ => rfl, rfl, rfl, fun j => ⟨(s.obj j).thr, (s.obj j).cached, rfl⟩, I, [], rfl,
      fun j => ⟨fun h => absurd rfl h, fun h1 h2 => absurd h1 h2⟩⟩
    · split
      · next h => rw [h]; rfl
      · rfl
    · simp [Given.stamps]
  cases g with
  | nothing => exact noop
  | known v =>
    show Gv C s (if _ then s else _) st _
    split
    · next h =>
      refine ⟨fun t => ?_, fun t => ?_, noop.lookups, rfl, rfl, noop.same, I, noop.told⟩
      · split
        · next h' => rw [h', h]; rfl
        · rfl
      · simp [Given.stamps, h]
    · next h =>
      obtain ⟨h1, h2, h3, h4, h5, h6, h7, h8⟩ := tell (some v) _ rfl
      exact ⟨h1, fun t => by rw [h2 t]; simp [Given.stamps, h], h3, h4, h5, h6, h7, h8⟩
  | unknown =>
    show Gv C s (if _ then _ else _) st _
    split
    · obtain ⟨h1, h2, h3, h4, h5, h6, h7, h8⟩ := tell none _ rfl
      exact ⟨h1, fun t => by rw [h2 t]; simp [Given.stamps], h3, h4, h5, h6, h7, h8⟩
    · next h =>
      obtain ⟨h1, h2, h3, h4, h5, h6, h7, h8⟩ := quiet _ rfl (by
        cases hv : (s.entry st).value with
        | none => exact .inl rfl
        | some v => cases v with
          | none => exact .inr rfl
          | some x => rw [hv] at h; simp at h)
      exact ⟨h1, fun t => by rw [h2 t]; simp [Given.stamps], h3, h4, h5, h6, h7, h8⟩
  | clear =>
    cases hv : (s.entry st).value with
    | none =>
      have e : give C s st .clear = s := by unfold give; simp only [hv]
      rw [e]
      refine ⟨fun t => ?_, fun t => ?_, noop.lookups, rfl, rfl, noop.same, I, noop.told⟩
      · split
        · next h' => rw [h', hv]; rfl
        · rfl
      · simp [Given.stamps, hv]
    | some v =>
      have e : give C s st .clear = (if v.isSome then notifyAll C (s.setEntry st { s.entry st with value := some none, stamp := s.cycle }) (s.entry st).lookups
          else s.setEntry st { s.entry st with value := some none, stamp := s.cycle }) := by
        unfold give; simp only [hv]
      rw [e]
      split
      · obtain ⟨h1, h2, h3, h4, h5, h6, h7, h8⟩ := tell none _ rfl
        exact ⟨fun t => by rw [h1 t, hv]; rfl, fun t => by rw [h2 t, hv]; simp [Given.stamps], h3, h4, h5, h6, h7, h8⟩
      · next h =>
        obtain ⟨h1, h2, h3, h4, h5, h6, h7, h8⟩ := quiet _ rfl (by
          cases v with
          | none => exact .inr hv
          | some x => simp at h)
        exact ⟨fun t => by rw [h1 t, hv]; rfl, fun t => by rw [h2 t, hv]; simp [Given.stamps], h3, h4, h5, h6, h7, h8⟩

end Verif.Lookup
