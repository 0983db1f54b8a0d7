import Verif.Expr.Model
/-
What the operators are supposed to compute, in terms of the values of the operands only
(`none` = unknown).  Nothing here refers to how the code does it.
-/
namespace Verif.Expr
open Verif.Value

/-- Kleene conjunction of any number of truth values. -/
def kAnd (l : List (Option Bool)) : Option Bool :=
  if some false ∈ l then some false else if none ∈ l then none else some true

/-- Kleene disjunction of any number of truth values. -/
def kOr (l : List (Option Bool)) : Option Bool :=
  if some true ∈ l then some true else if none ∈ l then none else some false

/-- Exclusive or: unknown as soon as one operand is, otherwise whether an odd number of them is true. -/
def kXor (l : List (Option Bool)) : Option Bool :=
  if none ∈ l then none else some (l.count (some true) % 2 == 1)

/-- Kleene negation. -/
def kNot : Option Bool → Option Bool
  | none => none
  | some b => some (!b)

/-- `y` knows at least as much as `x`. -/
def Refines {α} (x y : Option α) : Prop := x = none ∨ x = y

/-- Whether an operand is unknown can be tested. -/
instance (priority := low) decNoneMem {α} (xs : List (Option α)) : Decidable (none ∈ xs) :=
  decidable_of_iff (xs.any Option.isNone = true) (by
    rw [List.any_eq_true]
    constructor
    · rintro ⟨x, hx, h⟩
      cases x with
      | none => exact hx
      | some a => cases h
    · intro h; exact ⟨none, h, rfl⟩)

/-- A strict function of known values: unknown if any operand is. -/
def strict {α β} (f : List α → β) (xs : List (Option α)) : Option β :=
  if none ∈ xs then none else some (f (xs.filterMap id))

/-- `n` is the least integer not below `k / 2¹⁰⁷⁴`. -/
def IsCeil (k n : Int) : Prop := (n - 1) * unit < k ∧ k ≤ n * unit
/-- `n` is the greatest integer not above `k / 2¹⁰⁷⁴`. -/
def IsFloor (k n : Int) : Prop := n * unit ≤ k ∧ k < (n + 1) * unit
/-- `n` is `k / 2¹⁰⁷⁴` with its fraction dropped. -/
def IsTrunc (k n : Int) : Prop := (0 ≤ k → IsFloor k n) ∧ (k < 0 → IsCeil k n)
/-- `n` is an integer nearest to `k / 2¹⁰⁷⁴`, the one further from zero in case of a tie. -/
def IsRound (k n : Int) : Prop :=
  2 * (k - n * unit) ≤ unit ∧ 2 * (n * unit - k) ≤ unit ∧
  (2 * (k - n * unit) = unit → k < 0) ∧ (2 * (n * unit - k) = unit → 0 < k)

/-- The meaning of the four rounding operations. -/
def IsConv : Conv → Int → Int → Prop
  | .ceil => IsCeil | .floor => IsFloor | .trunc => IsTrunc | .round => IsRound

end Verif.Expr
