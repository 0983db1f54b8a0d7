import Verif.Text.Model
/-!
What C72-C74 are stated with: the texts of integers, as the C standard's integer constants (decimal, octal with a leading zero, hexadecimal with `0x`), with
blanks before them and a sign.
-/
namespace Verif.Text

/-- The character is the digit `d`, in either case. -/
def DigitIs (c : Char) (d : Nat) : Prop := "0123456789abcdef".toList[d]? = some c ∨ "0123456789ABCDEF".toList[d]? = some c

/-- A sequence of one or more digits of the base denotes a number. -/
inductive Num (b : Nat) : List Char → Nat → Prop
  | one {c : Char} {d : Nat} : DigitIs c d → d < b → Num b [c] d
  | snoc {ds : List Char} {n : Nat} {c : Char} {d : Nat} : Num b ds n → DigitIs c d → d < b → Num b (ds ++ [c]) (n * b + d)

/-- An unsigned constant: decimal digits that do not begin with 0; 0 and octal digits; 0x and hexadecimal digits. -/
inductive Unsigned : List Char → Nat → Prop
  | dec {ds : List Char} {n : Nat} : Num 10 ds n → ds.head? ≠ some '0' → Unsigned ds n
  | oct {ds : List Char} {n : Nat} : Num 8 ds n → ds.head? = some '0' → Unsigned ds n
  | hex {x : Char} {ds : List Char} {n : Nat} : x = 'x' ∨ x = 'X' → Num 16 ds n → Unsigned ('0' :: x :: ds) n

/-- The text of an integer. -/
inductive IntegerText : List Char → Int → Prop
  | mk {blanks body : List Char} {n : Nat} : (∀ c ∈ blanks, c ∈ [' ', '\t', '\n', '\x0b', '\x0c', '\r']) → Unsigned body n → IntegerText (blanks ++ body) n
  | plus {blanks body : List Char} {n : Nat} : (∀ c ∈ blanks, c ∈ [' ', '\t', '\n', '\x0b', '\x0c', '\r']) → Unsigned body n →
      IntegerText (blanks ++ '+' :: body) n
  | minus {blanks body : List Char} {n : Nat} : (∀ c ∈ blanks, c ∈ [' ', '\t', '\n', '\x0b', '\x0c', '\r']) → Unsigned body n →
      IntegerText (blanks ++ '-' :: body) (-n)

end Verif.Text
