import Verif.Value.Basic
set_option autoImplicit false
/-!
The values that can be sent through IPC.
-/
namespace Verif.Ipc
open Verif.Value (Str Arr Value)

/-- An array of these elements, all known. -/
def Full {α : Type} (a : Arr α) (l : List α) : Prop := a.contents = l ∧ a.known = List.replicate l.length true

/-- A string without zero bytes. -/
def Plain (s : Str) : Prop := (0 : Verif.Value.Byte) ∉ s

/-- A Boolean, a number, a string without zero bytes, or an array of such, all known; or "unknown" of no particular type. -/
inductive Sendable : Value → Prop
  | unknown : Sendable (.unknown .unknownT)
  | bool (b : Bool) : Sendable (.known (.bool b))
  | int (i : Verif.Value.I32) : Sendable (.known (.int i))
  | real (r : Verif.Value.F64) : Sendable (.known (.real r))
  | str (s : Str) (h : Plain s) : Sendable (.known (.str s))
  | boolArr (a : Arr Bool) (l : List Bool) (h : Full a l) : Sendable (.known (.boolArr a))
  | intArr (a : Arr Verif.Value.I32) (l : List Verif.Value.I32) (h : Full a l) : Sendable (.known (.intArr a))
  | realArr (a : Arr Verif.Value.F64) (l : List Verif.Value.F64) (h : Full a l) : Sendable (.known (.realArr a))
  | strArr (a : Arr Str) (l : List Str) (h : Full a l) (hp : ∀ s ∈ l, Plain s) : Sendable (.known (.strArr a))

end Verif.Ipc
