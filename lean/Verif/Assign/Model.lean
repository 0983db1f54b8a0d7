import Verif.Var.Model
import Verif.Decl.Model
/-
Model of storing a value whose type is not known before in a variable: what an Assignment, or the answer to a command, does.
Sources: `/repo/src/value/Value.cc:742-894`, `/repo/src/expr/UserVariable.cc:286-303`, `/repo/src/expr/ArrayVariable.cc:232-239, 593-692, 744-807`, `/repo/src/expr/ArrayReference.cc:250-256`,
`/repo/src/exec/Assignment.cc:142-149`, `/repo/src/exec/PlexilExec.cc:594-606`, `/repo/src/intfc/CommandImpl.cc:478-483`, `/repo/src/xml-parser/parseAssignment.cc:85-128`, `/repo/src/utils/PlanError.cc:70-77`.

A plan error is `none`: as programs are built by default the process ends there (`assert(false)`, `PlanError.cc:76`; nobody calls `doThrowExceptions` outside the tests). The conversion of an Integer to a Real by the machine is a function `conv`.
-/
set_option autoImplicit false
namespace Verif.Assign
open Verif.Value (Value Payload Arr I32 F64 Str)
open Verif.Text (VT)
open Verif.Var (Scalar ArrVar Ref)

/-- A variable of a plan. `UserVariable.cc:443-445`, `ArrayVariable.cc:809-811`. -/
inductive AVar where
  | bool (s : Scalar Bool)
  | int (s : Scalar I32)
  | real (s : Scalar F64)
  | str (s : Scalar Str)
  | boolArr (s : ArrVar Bool)
  | intArr (s : ArrVar I32)
  | realArr (s : ArrVar F64)
  | strArr (s : ArrVar Str)

/-- `valueType`, `UserVariable.hh`, `ArrayVariable.cc`. -/
def AVar.type : AVar → VT
  | .bool _ => .boolean
  | .int _ => .integer
  | .real _ => .real
  | .str _ => .string
  | .boolArr _ => .booleanArray
  | .intArr _ => .integerArray
  | .realArr _ => .realArray
  | .strArr _ => .stringArray

/-- `Value::getValue(Boolean &)`, `Value.cc:742-751`. -/
def getBool : Value → Option (Option Bool)
  | .unknown _ => some none
  | .known (.bool b) => some (some b)
  | .known _ => none

/-- `Value::getValue(Integer &)`, `Value.cc:797-806`. -/
def getInt : Value → Option (Option I32)
  | .unknown _ => some none
  | .known (.int i) => some (some i)
  | .known _ => none

/-- `Value::getValue(Real &)`, `Value.cc:808-826`. -/
def getReal (conv : I32 → F64) : Value → Option (Option F64)
  | .unknown _ => some none
  | .known (.real r) => some (some r)
  | .known (.int i) => some (some (conv i))
  | .known _ => none

/-- `Value::getValue(String &)`, `Value.cc:828-837`, and `getValuePointer(String const *&)`, `839-848`. -/
def getStr : Value → Option (Option Str)
  | .unknown _ => some none
  | .known (.str s) => some (some s)
  | .known _ => none

/-- `Value::getValuePointer(Array const *&)`, `Value.cc:850-867`, with the cast in `setValueImpl`, `ArrayVariable.cc:596-598`. -/
def getBoolArr : Value → Option (Option (Arr Bool))
  | .unknown _ => some none
  | .known (.boolArr a) => some (some a)
  | .known _ => none

/-- The same for Integers, `ArrayVariable.cc:632-634`. -/
def getIntArr : Value → Option (Option (Arr I32))
  | .unknown _ => some none
  | .known (.intArr a) => some (some a)
  | .known _ => none

/-- The same for Reals, `ArrayVariable.cc:596-598`. -/
def getRealArr : Value → Option (Option (Arr F64))
  | .unknown _ => some none
  | .known (.realArr a) => some (some a)
  | .known _ => none

/-- The same for Strings, `ArrayVariable.cc:664-692`. -/
def getStrArr : Value → Option (Option (Arr Str))
  | .unknown _ => some none
  | .known (.strArr a) => some (some a)
  | .known _ => none

/-- `setValue`, `UserVariable.cc:286-303`, `ArrayVariable.cc:232-239`. -/
def AVar.set (conv : I32 → F64) (x : AVar) (v : Value) : Option (AVar × Bool) :=
  match x with
  | .bool s => (getBool v).map fun o => let r := s.set o; (.bool r.1, r.2)
  | .int s => (getInt v).map fun o => let r := s.set o; (.int r.1, r.2)
  | .real s => (getReal conv v).map fun o => let r := s.set o; (.real r.1, r.2)
  | .str s => (getStr v).map fun o => let r := s.set o; (.str r.1, r.2)
  | .boolArr s => (getBoolArr v).bind fun o => (s.set false o).map fun r => (.boolArr r.1, r.2)
  | .intArr s => (getIntArr v).bind fun o => (s.set 0 o).map fun r => (.intArr r.1, r.2)
  | .realArr s => (getRealArr v).bind fun o => (s.set 0 o).map fun r => (.realArr r.1, r.2)
  | .strArr s => (getStrArr v).bind fun o => (s.set [] o).map fun r => (.strArr r.1, r.2)

/-- `MutableArrayReference::setValue` of element `ix`, `ArrayReference.cc:250-256`, with `setElement`, `ArrayVariable.cc:744-807`. The value is only looked at if the array and the index are known
(`mutableSelfCheck`). Scalars have no elements (`c134_element`). -/
def AVar.setElement (conv : I32 → F64) (x : AVar) (ix : Option Int) (v : Value) : Option (AVar × Bool) :=
  match x with
  | .boolArr s => match s.check ix with
    | none => none
    | some none => some (x, false)
    | some (some _) => (getBool v).bind fun o => (Ref.set s ix o).map fun r => (.boolArr r.1, r.2)
  | .intArr s => match s.check ix with
    | none => none
    | some none => some (x, false)
    | some (some _) => (getInt v).bind fun o => (Ref.set s ix o).map fun r => (.intArr r.1, r.2)
  | .realArr s => match s.check ix with
    | none => none
    | some none => some (x, false)
    | some (some _) => (getReal conv v).bind fun o => (Ref.set s ix o).map fun r => (.realArr r.1, r.2)
  | .strArr s => match s.check ix with
    | none => none
    | some none => some (x, false)
    | some (some _) => (getStr v).bind fun o => (Ref.set s ix o).map fun r => (.strArr r.1, r.2)
  | _ => none

/-- What is assigned to: a variable, or an element. `parseAssignment.cc:58-60`. -/
inductive Target where
  | whole
  | element (ix : Option Int)

/-- `setValue` of an Assignable. `Assignment.cc:145`, `CommandImpl.cc:482`. -/
def AVar.store (conv : I32 → F64) (x : AVar) (t : Target) (v : Value) : Option (AVar × Bool) :=
  match t with
  | .whole => x.set conv v
  | .element ix => x.setElement conv ix v

/-- The type of the left-hand side; of an element (`ArrayReference::valueType`) that of the elements. `parseAssignment.cc:102`. -/
def AVar.targetType (x : AVar) : Target → VT
  | .whole => x.type
  | .element _ => match x with
    | .boolArr _ => .boolean
    | .intArr _ => .integer
    | .realArr _ => .real
    | .strArr _ => .string
    | _ => .unknown

/-- The check when the Assignment is made, `parseAssignment.cc:102-125`. -/
def accepted (x : AVar) (t : Target) (rhs : VT) : Bool := Verif.Decl.compatible (x.targetType t) rhs

/-- An assignment to be executed: variable, target, value fixed before (`Assignment.cc:122-126`). -/
structure Asg where
  dest : Nat
  target : Target
  value : Value

/-- `performAssignments`, `PlexilExec.cc:600-602`, with `Assignment::execute`, `Assignment.cc:142-149`. -/
def perform (conv : I32 → F64) : List Asg → (Nat → AVar) → Option (Nat → AVar)
  | [], σ => some σ
  | a :: l, σ => match (σ a.dest).store conv a.target a.value with
    | none => none
    | some (x, _) => perform conv l fun i => if i = a.dest then x else σ i

end Verif.Assign
