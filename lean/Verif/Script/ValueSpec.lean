import Verif.Script.ValueModel
import Verif.Text.Spec
/-
What C128 is stated with: the number a text begins with.
-/
set_option autoImplicit false
namespace Verif.Script
open Verif.Text

/-- Only blanks. -/
def Blank (s : List Char) : Prop := ∀ c ∈ s, c ∈ [' ', '\t', '\n', '\x0b', '\x0c', '\r']

/-- The text begins with the decimal number `i`: blanks, perhaps a sign, digits; after them there is no digit. -/
def Begins (s : List Char) (i : Int) : Prop :=
  ∃ blanks ds rest n, Blank blanks ∧ Num 10 ds n ∧ (∀ c ∈ rest.head?, c ∉ "0123456789".toList) ∧
    ((s = blanks ++ ds ++ rest ∧ i = n) ∨ (s = blanks ++ '+' :: ds ++ rest ∧ i = n) ∨ (s = blanks ++ '-' :: ds ++ rest ∧ i = -n))

/-- The nearest 32-bit number. -/
def near (i : Int) : Int := max (-2147483648) (min 2147483647 i)

end Verif.Script
