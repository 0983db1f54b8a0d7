import Verif.Message.Spec
import Verif.Props.Cache
set_option autoImplicit false
/-!
Lemmas for C86-C88.
-/
namespace Verif.Message
open Verif.Value Verif.Cache
open Verif.Keys (State)

/-! ### Cells -/

theorem read_cell (c : Cache) (s : State) : c.read s = (c.cell s).bind Cell.get := rfl

theorem cell_set (c : Cache) (s s' : State) (e : Option Entry) : (c.set s e).cell s' = if s' = s then e.bind (·.value) else c.cell s' := by
  unfold Cache.cell Cache.set; split <;> rfl

theorem cell_register (c : Cache) (s s' : State) : (c.register s).cell s' = c.cell s' := by
  unfold Cache.register
  rw [cell_set]
  split
  · rename_i h; subst h; exact entry_value c s'
  · rfl

theorem cell_unregister {c c' : Cache} {s : State} (h : c.unregister s = some c') (s' : State) : c'.cell s' = c.cell s' := by
  unfold Cache.unregister at h
  cases hc : c s with
  | none => rw [hc] at h; cases h
  | some e =>
    rw [hc] at h
    simp only at h
    split at h
    · cases h
    · cases h
      rw [cell_set]
      split
      · rename_i h; subst h; simp [Cache.cell, hc]
      · rfl

theorem cell_update_other {c c' : Cache} {s : State} {x : Value} (h : c.update s x = some c') {s' : State} (hs : s' ≠ s) : c'.cell s' = c.cell s' := by
  unfold Cache.update at h
  obtain ⟨e, _, rfl⟩ := Option.map_eq_some_iff.mp h
  rw [cell_set, if_neg hs]

theorem cell_setUnknown_other (c : Cache) (s : State) {s' : State} (hs : s' ≠ s) : (c.setUnknown s).cell s' = c.cell s' := by
  unfold Cache.setUnknown; rw [cell_set, if_neg hs]

/-- A known value of one of the cell types without conversions, put into an empty cell or one of its type: an exact type (equal values are identical). -/
theorem cell_update_exact {c : Cache} {s : State} {p : Payload} {t : VType} (ht : CellType t) (hp : p.type = t) (hex : ∀ q : Payload, q.type = t → same q p = true → q = p)
    (hc : c.cell s = none ∨ ∃ v, c.cell s = some (.typed t v) ∧ ∀ q, v = some q → q.type = t) :
    ∃ c', c.update s (.known p) = some c' ∧ c'.cell s = some (.typed t (some p)) := by
  rw [← entry_value] at hc
  have ht0 : p.type ≠ .unknownT := by rw [hp]; rintro rfl; simp [CellType, factory] at ht
  rcases hc with hc | ⟨v, hc, hv⟩
  · have hf : factory p.type = some (.typed t none) := by rw [hp]; exact ht
    have hr : resultType p.type = t := by
      rw [hp]; cases t <;> simp [CellType, factory] at ht <;> rfl
    unfold Cache.update
    rw [update_untyped (Or.inl hc) (x := .known p) ht0, if_neg (by simp only [Value.type]; rw [hf]; simp)]
    refine ⟨_, rfl, ?_⟩
    rw [cell_set, if_pos rfl]
    simp only [Entry.stored, Option.bind_some, Value.type, hr]
  · unfold Cache.update
    rw [update_typed ht hc, if_pos (show Heard t (.known p) from Or.inr (Or.inl hp))]
    refine ⟨_, rfl, ?_⟩
    rw [cell_set, if_pos rfl]
    simp only [Entry.stored, Option.bind_some]
    unfold put
    cases v with
    | none => rfl
    | some q =>
      simp only
      split
      · rename_i hs; rw [hex q (hv q rfl) hs]
      · rfl

theorem exact_str (x : Str) (q : Payload) (h : q.type = .string) (hs : same q (.str x) = true) : q = .str x := by
  cases q <;> simp [Payload.type] at h
  simp only [same, Value.equals, decide_eq_true_eq] at hs
  rw [hs]

theorem exact_bool (x : Bool) (q : Payload) (h : q.type = .boolean) (hs : same q (.bool x) = true) : q = .bool x := by
  cases q <;> simp [Payload.type] at h
  simp only [same, Value.equals, decide_eq_true_eq] at hs
  rw [hs]

theorem cell_setUnknown {c : Cache} {s : State} {t : VType} {v : Option Payload} (hc : c.cell s = some (.typed t v)) :
    (c.setUnknown s).cell s = some (.typed t none) := by
  rw [← entry_value] at hc
  unfold Cache.setUnknown
  rw [cell_set, if_pos rfl]
  simp [Entry.setUnknown, hc, Cell.setUnknown, Entry.stored]

/-! ### Names -/

theorem name_ne {a b : State} (h : a.name ≠ b.name) : a ≠ b := fun e => h (by rw [e])

theorem cell_delete (c : Cache) (s s' : State) : (deleteEntry c s).cell s' = c.cell s' ∨ (s' = s ∧ (deleteEntry c s).cell s' = none) := by
  unfold deleteEntry
  split
  · exact Or.inl rfl
  · split
    · exact Or.inl rfl
    · rw [cell_set]
      split
      · rename_i h; exact Or.inr ⟨h, rfl⟩
      · exact Or.inl rfl

theorem cell_delete_other (c : Cache) {s s' : State} (h : s' ≠ s) : (deleteEntry c s).cell s' = c.cell s' := by
  rcases cell_delete c s s' with h' | ⟨h', _⟩
  · exact h'
  · exact absurd h' h

theorem entry_lookups_delete (c : Cache) (s s' : State) (h : (c.entry s').lookups = 0) : ((deleteEntry c s).entry s').lookups = 0 := by
  unfold deleteEntry
  split
  · exact h
  · split
    · exact h
    · unfold Cache.entry Cache.set
      split
      · rfl
      · exact h

theorem cell_delete_same {c : Cache} {s : State} (h : (c.entry s).lookups = 0) : (deleteEntry c s).cell s = none := by
  unfold deleteEntry
  split
  · rename_i hn; simp [Cache.cell, hn]
  · rename_i e he
    have : e.lookups = 0 := by simpa [Cache.entry, he] using h
    simp [this, cell_set]

theorem cell_deleteParams_other (h : Str) (n : Nat) (c : Cache) {s : State} (hs : ∀ i, s ≠ paramState h i) : (deleteParams h n c).cell s = c.cell s := by
  induction n with
  | zero => rfl
  | succ n ih => rw [deleteParams, cell_delete_other _ (hs n), ih]

theorem lookups_deleteParams (h : Str) (n : Nat) (c : Cache) (s : State) (hl : (c.entry s).lookups = 0) : ((deleteParams h n c).entry s).lookups = 0 := by
  induction n with
  | zero => exact hl
  | succ n ih => exact entry_lookups_delete _ _ _ ih

theorem paramState_inj {h h' : Str} {i j : Nat} (hi : i < 2 ^ 32) (hj : j < 2 ^ 32) (e : paramState h i = paramState h' j) : h = h' ∧ i = j := by
  simp only [paramState, sv, iv, State.mk.injEq, true_and, List.cons.injEq, Value.known.injEq, Payload.str.injEq, Payload.int.injEq, and_true] at e
  refine ⟨e.1, ?_⟩
  have := congrArg BitVec.toNat e.2
  simpa [BitVec.toNat_ofNat, Nat.mod_eq_of_lt hi, Nat.mod_eq_of_lt hj] using this

theorem dataState_handle {h h' : Str} {s : State} (a : DataState h s) (b : DataState h' s) : h = h' := by
  have k : ∀ h s, DataState h s → s.params.head? = some (sv h) := by
    rintro h s (rfl | rfl | rfl | rfl | ⟨i, rfl⟩) <;> rfl
  have := (k h s a).symm.trans (k h' s b)
  simpa [sv] using this

theorem cell_deleteParams_same (h : Str) : ∀ (n : Nat) (c : Cache) (i : Nat), i < n → n ≤ 2 ^ 31 → (∀ j, (c.entry (paramState h j)).lookups = 0) →
    (deleteParams h n c).cell (paramState h i) = none := by
  intro n
  induction n with
  | zero => intro c i hi; omega
  | succ n ih =>
    intro c i hi hn hl
    rw [deleteParams]
    by_cases hin : i = n
    · subst hin
      exact cell_delete_same (lookups_deleteParams h i c _ (hl i))
    · rw [cell_delete_other]
      · exact ih c i (by omega) (by omega) hl
      · intro e
        exact hin (paramState_inj (by omega) (by omega) e).2

end Verif.Message
