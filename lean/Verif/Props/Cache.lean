import Verif.Cache.Spec
import Verif.Value.EqLemmas
import Mathlib.Data.List.Induction
set_option autoImplicit false
/-!
C85: what the state cache holds for a state.
-/
namespace Verif.Cache
open Verif.Value Verif.Keys

theorem vecEq_get {α : Type} {eq : α → α → Bool} {r : α → α → Prop} (h : ∀ x y, eq x y = true → r x y) :
    ∀ (l m : List α), vecEq eq l m = true → ∀ (i : Nat) x y, l[i]? = some x → m[i]? = some y → r x y
  | [], [], _, i, x, y, hx, _ => by simp at hx
  | a :: l, b :: m, hv, 0, x, y, hx, hy => by
    simp only [vecEq, Bool.and_eq_true] at hv
    simp at hx hy; subst hx; subst hy; exact h _ _ hv.1
  | a :: l, b :: m, hv, i + 1, x, y, hx, hy => by
    simp only [vecEq, Bool.and_eq_true] at hv
    simp at hx hy; exact vecEq_get h l m hv.2 i x y hx hy

theorem dblEq_eq {a b : Dbl} (h : Dbl.eq a b = true) : a = b := by
  cases a <;> cases b <;> simp_all [Dbl.eq]

theorem arrEq_same {α : Type} {eq : α → α → Bool} {r : α → α → Prop} (h : ∀ x y, eq x y = true → r x y) {a b : Arr α}
    (hv : Arr.eq eq a b = true) : SameArr r a b := by
  unfold Arr.eq at hv
  split at hv
  · cases hv
  · rename_i hk
    exact ⟨by simpa using hk, fun i x y _ hx hy => vecEq_get h _ _ hv i x y hx hy⟩

theorem same_sound {q p : Payload} (h : same q p = true) : SameValue (.known q) (.known p) := by
  unfold same at h
  cases q <;> cases p <;> simp only [Value.equals, decide_eq_true_eq, Bool.false_eq_true] at h
  all_goals first
    | (subst h; exact .scalar)
    | exact .boolArr (arrEq_same (by simp) h)
    | exact .intArr (arrEq_same (by simp) h)
    | exact .strArr (arrEq_same (by simp) h)
    | exact .realArr (arrEq_same (fun x y e => dblEq_eq e) h)
    | (rename_i a b; exact .num rfl (by simp only [number]; rw [dblEq_eq h]))

theorem agree_refl : ∀ v, Agree v v
  | none => trivial
  | some _ => SameValue.scalar

/-! ### The specification, answer by answer -/

theorem firstType_snoc (xs : List Value) (x : Value) :
    firstType (xs ++ [x]) = match firstType xs with
      | some t => some t
      | none => if x.type = .unknownT then none else some (resultType x.type) := by
  induction xs with
  | nil => simp [firstType]
  | cons y ys ih => simp only [List.cons_append, firstType]; split <;> simp_all

theorem firstType_none {xs : List Value} (h : firstType xs = none) : ∀ x ∈ xs, x = .unknown .unknownT := by
  induction xs with
  | nil => simp
  | cons y ys ih =>
    simp only [firstType] at h
    split at h
    · rename_i hy
      intro x hx
      rcases List.mem_cons.mp hx with rfl | hx
      · cases x with
        | unknown t => simp only [Value.type] at hy; subst hy; rfl
        | known p => cases p <;> simp [Value.type, Payload.type] at hy
      · exact ih h x hx
    · cases h

theorem lastHeard_snoc {xs : List Value} {x : Value} {t : VType} (h : firstType xs = some t) :
    lastHeard (xs ++ [x]) = if Heard t x then content x else lastHeard xs := by
  have h2 : firstType (xs ++ [x]) = some t := by rw [firstType_snoc, h]
  unfold lastHeard
  rw [h2, h]
  simp only [List.filter_append, List.filter_cons, List.filter_nil, decide_eq_true_eq]
  split
  · simp
  · simp

theorem lastHeard_first {xs : List Value} {x : Value} (h : firstType xs = none) : lastHeard (xs ++ [x]) = content x := by
  cases hx : firstType (xs ++ [x]) with
  | none =>
    have := firstType_none hx x (by simp)
    unfold lastHeard; rw [hx, this]; rfl
  | some t =>
    rw [firstType_snoc, h] at hx
    simp only at hx
    split at hx
    · cases hx
    · rename_i hne
      unfold lastHeard
      rw [firstType_snoc, h]
      simp only [hne, if_false]
      simp only [List.filter_append, List.filter_cons, List.filter_nil, decide_eq_true_eq]
      split
      · simp
      · rename_i hh
        have : content x = none := by
          cases x with
          | unknown t => rfl
          | known p => exfalso; apply hh; right; left; cases p <;> simp [Value.type, Payload.type, resultType]
        rw [this, List.append_nil]
        cases hl : (List.filter (fun x_1 => decide (Heard (resultType x.type) x_1)) xs).getLast? with
        | none => rfl
        | some y =>
          have hy : y ∈ List.filter (fun x_1 => decide (Heard (resultType x.type) x_1)) xs := List.mem_of_getLast? hl
          rw [firstType_none h y (List.mem_filter.mp hy).1]; rfl

/-! ### The cell of one state -/

/-- The types of cells, `CachedValueImpl.cc:691-727`. -/
def CellType (t : VType) : Prop := factory t = some (.typed t none)

/-- What the cell of a state looks like after the answers. -/
def CellInv (xs : List Value) (m : Option Cell) : Prop :=
  match firstType xs with
  | none => m = none ∨ m = some .void
  | some t => CellType t ∧ ∃ v, m = some (.typed t v) ∧ (∀ p, v = some p → fits t p = true) ∧ Agree v (lastHeard xs)

theorem CellInv.read {xs : List Value} {m : Option Cell} (h : CellInv xs m) : Agree (m.bind Cell.get) (lastHeard xs) := by
  unfold CellInv at h
  split at h
  · rename_i hn
    have : lastHeard xs = none := by unfold lastHeard; rw [hn]
    rw [this]
    rcases h with rfl | rfl <;> trivial
  · obtain ⟨_, v, rfl, _, hv⟩ := h; exact hv

theorem put_agree (t : VType) (v : Option Payload) (p : Payload) (hp : fits t p = true) (hv : ∀ p, v = some p → fits t p = true) :
    ∃ w, (put t v p).1 = .typed t w ∧ (∀ p, w = some p → fits t p = true) ∧ Agree w (some p) := by
  unfold put
  cases v with
  | none => exact ⟨some p, rfl, by rintro _ ⟨⟩; exact hp, agree_refl _⟩
  | some q =>
    simp only
    split
    · rename_i h; exact ⟨some q, rfl, hv, same_sound h⟩
    · exact ⟨some p, rfl, by rintro _ ⟨⟩; exact hp, agree_refl _⟩

theorem fits_heard {t : VType} {p : Payload} (h : fits t p = true) : Heard t (.known p) := by
  unfold fits at h
  simp only [Bool.or_eq_true, decide_eq_true_eq, Bool.and_eq_true] at h
  rcases h with h | h
  · exact Or.inr (Or.inl h)
  · exact Or.inr (Or.inr ⟨h.2, h.1⟩)

theorem heard_fits {t : VType} {p : Payload} (h : Heard t (.known p)) : fits t p = true := by
  unfold fits
  simp only [Bool.or_eq_true, decide_eq_true_eq, Bool.and_eq_true]
  rcases h with h | h | h
  · cases p <;> simp [Value.type, Payload.type] at h
  · exact Or.inl h
  · exact Or.inr ⟨h.2, h.1⟩

theorem ensureCell_typed {t : VType} (ht : CellType t) (v : Option Payload) (x : Value) :
    ensureCell (some (.typed t v)) x.type = some (.typed t v, decide (Heard t x)) := by
  have h0 : t ≠ .unknownT := by rintro rfl; simp [CellType, factory] at ht
  have h1 : t ≠ .date := by rintro rfl; simp [CellType, factory] at ht
  have h2 : t ≠ .duration := by rintro rfl; simp [CellType, factory] at ht
  simp only [ensureCell, Cell.type, h0, if_false, h1, h2, or_self, and_false]
  by_cases ha : t = x.type ∨ x.type = .unknownT
  · rw [if_pos ha, decide_eq_true]
    rcases ha with ha | ha
    · exact Or.inr (Or.inl ha.symm)
    · exact Or.inl ha
  · rw [if_neg ha]
    by_cases hb : x.type = .integer ∧ isNumeric t = true
    · rw [if_pos hb, decide_eq_true]
      have : t = .real := by
        cases t <;> simp [isNumeric] at hb <;> simp_all
      exact Or.inr (Or.inr ⟨hb.1, this⟩)
    · rw [if_neg hb, decide_eq_false]
      rintro (h | h | ⟨h, rfl⟩)
      · exact ha (Or.inr h)
      · exact ha (Or.inl h.symm)
      · exact hb ⟨h, rfl⟩

theorem update_typed {e : Entry} {t : VType} {v : Option Payload} (ht : CellType t) (he : e.value = some (.typed t v)) (x : Value) :
    e.update x = if Heard t x then
        (match x with
          | .known p => some (e.stored (put t v p))
          | .unknown _ => some (e.stored (Cell.setUnknown (.typed t v))))
      else some e := by
  unfold Entry.update
  rw [he, ensureCell_typed ht]
  simp only [Option.bind_some, Entry.take, decide_eq_true_eq]
  split
  · rename_i hh
    cases x with
    | unknown u => rfl
    | known p => simp only [Cell.update, heard_fits hh, if_true]; rfl
  · rw [← he]

theorem resultType_cell {t : VType} (h : factory t ≠ none) (h0 : t ≠ .unknownT) : CellType (resultType t) ∧ factory t = some (.typed (resultType t) none) := by
  cases t <;> simp_all [factory, resultType, CellType]

theorem ensureCell_untyped {m : Option Cell} (hm : m = none ∨ m = some .void) {t : VType} (ht : t ≠ .unknownT) :
    ensureCell m t = (factory t).map (fun c => (c, true)) := by
  rcases hm with rfl | rfl
  · rfl
  · simp [ensureCell, Cell.type, ht, Ne.symm ht]

theorem update_untyped {e : Entry} (he : e.value = none ∨ e.value = some .void) {x : Value} (hx : x.type ≠ .unknownT) :
    e.update x = if factory x.type = none then none else
        (match x with
          | .known p => some (e.stored (.typed (resultType x.type) (some p), true))
          | .unknown _ => some (e.stored (.typed (resultType x.type) none, false))) := by
  unfold Entry.update
  rw [ensureCell_untyped he hx]
  by_cases hf : factory x.type = none
  · simp [hf]
  · obtain ⟨h1, h2⟩ := resultType_cell hf hx
    rw [if_neg hf, h2]
    simp only [Option.map_some, Option.bind_some, Entry.take, if_true]
    cases x with
    | unknown u => rfl
    | known p =>
      have : fits (resultType (Value.known p).type) p = true := by
        apply heard_fits; right; left
        cases p <;> simp [Value.type, Payload.type, resultType]
      simp only [Cell.update, this, if_true]; rfl

theorem update_nothing {e : Entry} (he : e.value = none ∨ e.value = some .void) :
    e.update (.unknown .unknownT) = some (e.stored (.void, true)) := by
  unfold Entry.update
  rcases he with he | he <;> rw [he] <;> simp [ensureCell, Value.type, Cell.type, factory, Entry.take, Cell.update]

theorem unknown_of_type {x : Value} (h : x.type = .unknownT) : x = .unknown .unknownT := by
  cases x with
  | unknown t => simp only [Value.type] at h; subst h; rfl
  | known p => cases p <;> simp [Value.type, Payload.type] at h

theorem update_inv {xs : List Value} {e e' : Entry} (h : CellInv xs e.value) {x : Value} (hu : e.update x = some e') : CellInv (xs ++ [x]) e'.value := by
  unfold CellInv at h ⊢
  rw [firstType_snoc]
  cases hf : firstType xs with
  | none =>
    rw [hf] at h
    simp only at h ⊢
    split
    · rename_i hn
      split at hn
      · rename_i hx
        rw [unknown_of_type hx, update_nothing h] at hu
        cases hu; exact Or.inr rfl
      · cases hn
    · rename_i t hn
      split at hn
      · cases hn
      · rename_i hx
        cases hn
        rw [update_untyped h hx] at hu
        split at hu
        · cases hu
        · rename_i hfac
          obtain ⟨h1, h2⟩ := resultType_cell hfac hx
          refine ⟨h1, ?_⟩
          rw [lastHeard_first hf]
          cases x with
          | unknown u => simp only [Option.some.injEq] at hu; subst hu; exact ⟨none, rfl, by simp, trivial⟩
          | known p =>
            simp only [Option.some.injEq] at hu; subst hu
            refine ⟨some p, rfl, ?_, agree_refl _⟩
            rintro _ ⟨⟩
            apply heard_fits; right; left
            cases p <;> simp [Value.type, Payload.type, resultType]
  | some t =>
    rw [hf] at h
    simp only at h ⊢
    obtain ⟨ht, v, he, hv, ha⟩ := h
    refine ⟨ht, ?_⟩
    rw [lastHeard_snoc hf]
    rw [update_typed ht he] at hu
    by_cases hh : Heard t x
    · rw [if_pos hh] at hu ⊢
      cases x with
      | unknown u => simp only [Option.some.injEq] at hu; subst hu; exact ⟨none, rfl, by simp, trivial⟩
      | known p =>
        simp only [Option.some.injEq] at hu; subst hu
        obtain ⟨w, h1, h2, h3⟩ := put_agree t v p (heard_fits hh) hv
        exact ⟨w, by rw [← h1]; rfl, h2, h3⟩
    · rw [if_neg hh] at hu ⊢
      cases hu; exact ⟨v, he, hv, ha⟩

theorem setUnknown_inv {xs : List Value} {e : Entry} (h : CellInv xs e.value) : CellInv (xs ++ [.unknown .unknownT]) e.setUnknown.value := by
  unfold CellInv at h ⊢
  rw [firstType_snoc]
  cases hf : firstType xs with
  | none =>
    rw [hf] at h
    simp only [Value.type, if_true] at h ⊢
    rcases h with h | h
    · left; simp [Entry.setUnknown, h]
    · right; simp [Entry.setUnknown, h, Cell.setUnknown, Entry.stored]
  | some t =>
    rw [hf] at h
    simp only at h ⊢
    obtain ⟨ht, v, he, hv, ha⟩ := h
    refine ⟨ht, none, by simp [Entry.setUnknown, he, Cell.setUnknown, Entry.stored], by simp, ?_⟩
    rw [lastHeard_snoc hf, if_pos (show Heard t (.unknown .unknownT) from Or.inl rfl)]
    trivial

/-! ### The cache -/

/-- The cell of a state. -/
def Cache.cell (c : Cache) (s : State) : Option Cell := (c s).bind (·.value)

theorem entry_value (c : Cache) (s : State) : (c.entry s).value = c.cell s := by
  unfold Cache.entry Cache.cell; cases c s <;> rfl

theorem run_snoc (evs : List Ev) (ev : Ev) : Cache.run (evs ++ [ev]) = (Cache.run evs).bind (fun c => c.step ev) := by
  unfold Cache.run
  rw [List.foldlM_append]
  cases List.foldlM Cache.step (fun _ => none) evs <;> simp

theorem answers_append (s : State) (a b : List Ev) : answers s (a ++ b) = answers s a ++ answers s b := by
  induction a with
  | nil => rfl
  | cons x a ih => cases x <;> simp only [List.cons_append, answers, ih] <;> split <;> simp

theorem cell_inv (evs : List Ev) : ∀ (c : Cache), Cache.run evs = some c → ∀ s, CellInv (answers s evs) (c.cell s) := by
  induction evs using List.reverseRecOn with
  | nil => intro c h s; cases h; exact Or.inl rfl
  | append_singleton evs ev ih =>
    intro c h s
    rw [run_snoc] at h
    obtain ⟨c0, h0, h1⟩ := Option.bind_eq_some_iff.mp h
    have hi := ih c0 h0
    rw [answers_append]
    cases ev with
    | update s' x =>
      simp only [Cache.step, Cache.update, Option.map_eq_some_iff] at h1
      obtain ⟨e, he, rfl⟩ := h1
      by_cases hs : s' = s
      · subst hs
        simp only [answers, if_true, Cache.cell, Cache.set, Option.bind_some]
        exact update_inv (by rw [entry_value]; exact hi s') he
      · simp only [answers, hs, if_false, Cache.cell, Cache.set, Ne.symm hs, List.append_nil]
        exact hi s
    | setUnknown s' =>
      simp only [Cache.step, Option.some.injEq] at h1; subst h1
      by_cases hs : s' = s
      · subst hs
        simp only [answers, if_true, Cache.cell, Cache.setUnknown, Cache.set, Option.bind_some]
        exact setUnknown_inv (by rw [entry_value]; exact hi s')
      · simp only [answers, hs, if_false, Cache.cell, Cache.setUnknown, Cache.set, Ne.symm hs, List.append_nil]
        exact hi s
    | register s' =>
      simp only [Cache.step, Option.some.injEq] at h1; subst h1
      simp only [answers, List.append_nil]
      by_cases hs : s' = s
      · subst hs
        simp only [Cache.cell, Cache.register, Cache.set, if_true, Option.bind_some]
        rw [entry_value]; exact hi s'
      · simp only [Cache.cell, Cache.register, Cache.set, Ne.symm hs, if_false]
        exact hi s
    | unregister s' =>
      simp only [Cache.step, Cache.unregister] at h1
      simp only [answers, List.append_nil]
      cases hc : c0 s' with
      | none => rw [hc] at h1; cases h1
      | some e =>
        rw [hc] at h1
        simp only at h1
        split at h1
        · cases h1
        · cases h1
          by_cases hs : s' = s
          · subst hs
            have := hi s'
            simp only [Cache.cell, hc, Option.bind_some] at this
            simpa [Cache.cell, Cache.set] using this
          · simp only [Cache.cell, Cache.set, Ne.symm hs, if_false]
            exact hi s

/-- C85: after any history of answers for any states, of lookups coming and going, what a lookup of a state reads is the last answer for that state that was heard – and an answer
is heard if it has the type of the first answer with a type, or is an Integer for a Real state, or is just "unknown". -/
theorem c85_value_partial (evs : List Ev) (c : Cache) (h : Cache.run evs = some c) (s : State) : Agree (c.read s) (lastHeard (answers s evs)) :=
  (cell_inv evs c h s).read

theorem answers_last_heard {xs : List Value} {x : Value} (ht : ∀ t, firstType (xs ++ [x]) = some t → Heard t x) : lastHeard (xs ++ [x]) = content x := by
  cases hf : firstType xs with
  | none => exact lastHeard_first hf
  | some t => rw [lastHeard_snoc hf, if_pos (ht t (by rw [firstType_snoc, hf]))]

/-- C85 for a well-typed interface: if the last answer for a state is heard, that answer is what lookups read. -/
theorem c85_last_answer (evs : List Ev) (c : Cache) (h : Cache.run evs = some c) (s : State) (xs : List Value) (x : Value) (ha : answers s evs = xs ++ [x])
    (ht : ∀ t, firstType (answers s evs) = some t → Heard t x) : Agree (c.read s) (content x) := by
  have := c85_value_partial evs c h s
  rw [ha] at this ht
  rwa [answers_last_heard ht] at this

/-- What notification an event may cause. -/
def NotifyOk (a b : Entry) : Prop :=
  (b.value.bind Cell.get ≠ a.value.bind Cell.get → b.notified = a.notified + 1) ∧ (b.notified = a.notified ∨ b.notified = a.notified + 1)

theorem NotifyOk.refl (e : Entry) : NotifyOk e e := ⟨fun h => absurd rfl h, Or.inl rfl⟩

theorem stored_ok (e : Entry) (r : Cell × Bool) (h : r.2 = false → r.1.get = e.value.bind Cell.get) : NotifyOk e (e.stored r) := by
  unfold NotifyOk Entry.stored
  cases hb : r.2 with
  | true => simp
  | false => simp [h hb]

theorem update_ok {xs : List Value} {e e' : Entry} (h : CellInv xs e.value) {x : Value} (hu : e.update x = some e') : NotifyOk e e' := by
  unfold CellInv at h
  split at h
  · have hn : e.value.bind Cell.get = none := by rcases h with h | h <;> rw [h] <;> rfl
    by_cases hx : x.type = .unknownT
    · rw [unknown_of_type hx, update_nothing h] at hu
      cases hu
      exact stored_ok _ _ (by simp)
    · rw [update_untyped h hx] at hu
      split at hu
      · cases hu
      · cases x with
        | unknown u => simp only [Option.some.injEq] at hu; subst hu; exact stored_ok _ _ (fun _ => by rw [hn]; rfl)
        | known p => simp only [Option.some.injEq] at hu; subst hu; exact stored_ok _ _ (by simp)
  · obtain ⟨ht, v, he, _, _⟩ := h
    rw [update_typed ht he] at hu
    split at hu
    · cases x with
      | unknown u =>
        simp only [Option.some.injEq] at hu; subst hu
        refine stored_ok _ _ (fun hb => ?_)
        simp only [Cell.setUnknown] at hb
        rw [he]
        cases v with
        | none => rfl
        | some q => simp at hb
      | known p =>
        simp only [Option.some.injEq] at hu; subst hu
        refine stored_ok _ _ (fun hb => ?_)
        rw [he]
        unfold put at hb ⊢
        cases v with
        | none => simp at hb
        | some q =>
          simp only at hb ⊢
          split at hb
          · rename_i hq; rw [if_pos hq]; rfl
          · simp at hb
    · cases hu; exact .refl _

theorem setUnknown_ok (e : Entry) : NotifyOk e e.setUnknown := by
  unfold Entry.setUnknown
  split
  · exact .refl _
  · rename_i c hc
    refine stored_ok _ _ (fun hb => ?_)
    rw [hc]
    cases c with
    | void => rfl
    | typed t v =>
      cases v with
      | none => rfl
      | some q => simp [Cell.setUnknown] at hb

/-- C85: the lookups registered on a state are notified at most once per event, always if what they read changes, never by an event about another state or by a lookup coming
or going. -/
theorem c85_notified (evs : List Ev) (ev : Ev) (c c' : Cache) (h : Cache.run evs = some c) (h' : c.step ev = some c') (s : State) :
    (c'.read s ≠ c.read s → (c'.entry s).notified = (c.entry s).notified + 1) ∧
    ((c'.entry s).notified = (c.entry s).notified ∨ (c'.entry s).notified = (c.entry s).notified + 1) ∧
    (answers s [ev] = [] → (c'.entry s).notified = (c.entry s).notified ∧ c'.read s = c.read s) := by
  have hr : ∀ (c : Cache), c.read s = (c.entry s).value.bind Cell.get := by intro c; rw [entry_value]; rfl
  simp only [hr]
  have hi : CellInv (answers s evs) (c.entry s).value := by rw [entry_value]; exact cell_inv evs c h s
  have other : ∀ (s' : State) (e : Option Entry), s ≠ s' → (c.set s' e).entry s = c.entry s := by
    intro s' e hs; simp [Cache.entry, Cache.set, hs]
  have this : ∀ (e : Entry), (c.set s (some e)).entry s = e := by intro e; simp [Cache.entry, Cache.set]
  have pair : NotifyOk (c.entry s) (c'.entry s) → (answers s [ev] = [] → (c'.entry s).notified = (c.entry s).notified ∧ (c'.entry s).value.bind Cell.get = (c.entry s).value.bind Cell.get) →
      ((c'.entry s).value.bind Cell.get ≠ (c.entry s).value.bind Cell.get → (c'.entry s).notified = (c.entry s).notified + 1) ∧
      ((c'.entry s).notified = (c.entry s).notified ∨ (c'.entry s).notified = (c.entry s).notified + 1) ∧
      (answers s [ev] = [] → (c'.entry s).notified = (c.entry s).notified ∧ (c'.entry s).value.bind Cell.get = (c.entry s).value.bind Cell.get) :=
    fun a b => ⟨a.1, a.2, b⟩
  apply pair
  all_goals clear pair
  · cases ev with
    | update s' x =>
      simp only [Cache.step, Cache.update, Option.map_eq_some_iff] at h'
      obtain ⟨e, he, rfl⟩ := h'
      by_cases hs : s = s'
      · subst hs; rw [this]; exact update_ok hi he
      · rw [other _ _ hs]; exact .refl _
    | setUnknown s' =>
      simp only [Cache.step, Option.some.injEq] at h'; subst h'
      by_cases hs : s = s'
      · subst hs; rw [Cache.setUnknown, this]; exact setUnknown_ok _
      · rw [Cache.setUnknown, other _ _ hs]; exact .refl _
    | register s' =>
      simp only [Cache.step, Option.some.injEq] at h'; subst h'
      by_cases hs : s = s'
      · subst hs; rw [Cache.register, this]; exact ⟨fun hh => absurd rfl hh, Or.inl rfl⟩
      · rw [Cache.register, other _ _ hs]; exact .refl _
    | unregister s' =>
      simp only [Cache.step, Cache.unregister] at h'
      cases hc : c s' with
      | none => rw [hc] at h'; cases h'
      | some e =>
        rw [hc] at h'
        simp only at h'
        split at h'
        · cases h'
        · cases h'
          by_cases hs : s = s'
          · subst hs
            have he : c.entry s = e := by simp [Cache.entry, hc]
            rw [this, he]; exact ⟨fun hh => absurd rfl hh, Or.inl rfl⟩
          · rw [other _ _ hs]; exact .refl _
  · intro ha
    cases ev with
    | update s' x =>
      simp only [Cache.step, Cache.update, Option.map_eq_some_iff] at h'
      obtain ⟨e, he, rfl⟩ := h'
      by_cases hs : s' = s
      · simp [answers, hs] at ha
      · rw [other _ _ (Ne.symm hs)]; exact ⟨rfl, rfl⟩
    | setUnknown s' =>
      simp only [Cache.step, Option.some.injEq] at h'; subst h'
      by_cases hs : s' = s
      · simp [answers, hs] at ha
      · rw [Cache.setUnknown, other _ _ (Ne.symm hs)]; exact ⟨rfl, rfl⟩
    | register s' =>
      simp only [Cache.step, Option.some.injEq] at h'; subst h'
      by_cases hs : s = s'
      · subst hs; rw [Cache.register, this]; exact ⟨rfl, rfl⟩
      · rw [Cache.register, other _ _ hs]; exact ⟨rfl, rfl⟩
    | unregister s' =>
      simp only [Cache.step, Cache.unregister] at h'
      cases hc : c s' with
      | none => rw [hc] at h'; cases h'
      | some e =>
        rw [hc] at h'
        simp only at h'
        split at h'
        · cases h'
        · cases h'
          by_cases hs : s = s'
          · subst hs
            have he : c.entry s = e := by simp [Cache.entry, hc]
            rw [this, he]; exact ⟨rfl, rfl⟩
          · rw [other _ _ hs]; exact ⟨rfl, rfl⟩

/-- C85: an answer is refused with an error only if it has a type that is not a type of lookup results, and no answer with a type came before it. -/
theorem c85_error (evs : List Ev) (c : Cache) (h : Cache.run evs = some c) (s : State) (x : Value) :
    c.step (.update s x) = none ↔ Internal x.type ∧ firstType (answers s evs) = none := by
  have hi : CellInv (answers s evs) (c.entry s).value := by rw [entry_value]; exact cell_inv evs c h s
  simp only [Cache.step, Cache.update, Option.map_eq_none_iff]
  unfold CellInv at hi
  split at hi
  · rename_i hn
    by_cases hx : x.type = .unknownT
    · have h1 : ¬ Internal x.type := by rw [hx]; simp [Internal]
      rw [unknown_of_type hx] at h1 ⊢
      rw [update_nothing hi]; simp [h1]
    · rw [update_untyped hi hx]
      have hf : factory x.type = none ↔ Internal x.type := by
        cases hxt : x.type <;> simp [factory, Internal]
      split
      · rename_i hfac; simp [hn, hf.mp hfac]
      · rename_i hfac
        have : ¬ Internal x.type := fun hh => hfac (hf.mpr hh)
        cases x <;> simp [this]
  · rename_i t hn
    obtain ⟨ht, v, he, _, _⟩ := hi
    rw [update_typed ht he, hn]
    simp only [reduceCtorEq, and_false, iff_false]
    split
    · cases x <;> simp
    · simp

/-- A state without parameters. -/
def st (n : Str) : State := ⟨n, []⟩

/-- C85 fails for an interface that answers an Integer first and Reals afterwards: the lookup reads the first answer for ever. Two and a half is not heard, nor is a Real unknown. -/
theorem c85_not_heard : (Cache.run [.register (st [97#8]), .update (st [97#8]) (.known (.int 2#32)), .update (st [97#8]) (.known (.real 0x4004000000000000#64)),
    .update (st [97#8]) (.unknown .real)]).map (fun c => c.read (st [97#8])) = some (some (.int 2#32)) := by decide

/-- A history that meets the hypotheses: a Real, an Integer for the same state, another state, and what is read. -/
theorem c85_example : (Cache.run [.register (st [97#8]), .update (st [97#8]) (.known (.real 0x4004000000000000#64)), .update (st [98#8]) (.known (.bool true)),
    .update (st [97#8]) (.known (.int 2#32)), .setUnknown (st [98#8])]).map (fun c => (c.read (st [97#8]), c.read (st [98#8]), (c.entry (st [97#8])).notified)) =
    some (some (.int 2#32), none, 2) := by decide +kernel

/-- How many of the lookups of a state that have registered have not unregistered. -/
def open_ (s : State) : List Ev → Int
  | [] => 0
  | .register s' :: r => (if s' = s then 1 else 0) + open_ s r
  | .unregister s' :: r => (if s' = s then -1 else 0) + open_ s r
  | _ :: r => open_ s r

theorem open_snoc (s : State) (evs : List Ev) (ev : Ev) : open_ s (evs ++ [ev]) = open_ s evs + open_ s [ev] := by
  induction evs with
  | nil => simp [open_]
  | cons a l ih => cases a <;> simp [open_] at ih ⊢ <;> omega

theorem stored_lookups (e : Entry) (r : Cell × Bool) : (e.stored r).lookups = e.lookups := rfl

theorem update_lookups {e e' : Entry} {x : Value} (h : e.update x = some e') : e'.lookups = e.lookups := by
  unfold Entry.update at h
  obtain ⟨r, -, h⟩ := Option.bind_eq_some_iff.1 h
  unfold Entry.take at h
  split at h
  · obtain ⟨q, -, rfl⟩ := Option.map_eq_some_iff.1 h; rfl
  · simp only [Option.some.injEq] at h; subst h; rfl

/-- The cache knows how many lookups of each state there are, whatever is reported meanwhile: those that have registered and not unregistered. -/
theorem c85_lookups (evs : List Ev) : ∀ (c : Cache), Cache.run evs = some c → ∀ (s : State), ((c.entry s).lookups : Int) = open_ s evs := by
  induction evs using List.reverseRecOn with
  | nil => intro c h s; simp [Cache.run] at h; subst h; rfl
  | append_singleton l ev ih =>
    intro c' h s
    rw [run_snoc] at h
    obtain ⟨c, h1, h2⟩ := Option.bind_eq_some_iff.1 h
    have := ih c h1 s
    rw [open_snoc]
    cases ev with
    | update s' x =>
      simp only [Cache.step, Cache.update] at h2
      obtain ⟨e, he, rfl⟩ := Option.map_eq_some_iff.1 h2
      have hl := update_lookups he
      by_cases e' : s = s'
      · subst e'; simp [Cache.entry, Cache.set, open_] at this hl ⊢; omega
      · simp [Cache.entry, Cache.set, open_, e'] at this ⊢; omega
    | setUnknown s' =>
      simp only [Cache.step, Cache.setUnknown, Option.some.injEq] at h2
      subst h2
      have hl : (c.entry s').setUnknown.lookups = (c.entry s').lookups := by unfold Entry.setUnknown; split <;> rfl
      by_cases e' : s = s'
      · subst e'; simp [Cache.entry, Cache.set, open_] at this hl ⊢; omega
      · simp [Cache.entry, Cache.set, open_, e'] at this ⊢; omega
    | register s' =>
      simp only [Cache.step, Cache.register, Option.some.injEq] at h2
      subst h2
      by_cases e' : s = s'
      · subst e'; simp [Cache.entry, Cache.set, open_] at this ⊢; omega
      · simp [Cache.entry, Cache.set, open_, e', Ne.symm e'] at this ⊢; omega
    | unregister s' =>
      simp only [Cache.step, Cache.unregister] at h2
      split at h2
      · simp at h2
      · rename_i e he
        split at h2
        · simp at h2
        · simp only [Option.some.injEq] at h2
          subst h2
          by_cases e' : s = s'
          · subst e'; simp [Cache.entry, Cache.set, open_, he] at this ⊢; omega
          · simp [Cache.entry, Cache.set, open_, e', Ne.symm e'] at this ⊢; omega

end Verif.Cache
