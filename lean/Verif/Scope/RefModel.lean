import Verif.Scope.Model
/-
Model of references to variables in plans: the check of the document, and the construction.
Source: `/repo/src/xml-parser/findDeclarations.cc`, `/repo/src/xml-parser/VariableReferenceFactory.cc`, `/repo/src/xml-parser/ArrayReferenceFactory.cc`,
`/repo/src/xml-parser/ArrayVariableReferenceFactory.cc`, `/repo/src/xml-parser/ExpressionMap.gperf`.

As in `Verif.Scope.Model`, a node is the path from it to the root, and types are numbers: those of `ValueType.hh:112-122`. Index expressions are left out.
-/
set_option autoImplicit false
namespace Verif.Scope

/-- `DeclareArray` or `DeclareVariable`. (`findDeclarations.cc:106, 120, 150, 164`.) -/
def Ty.isArray : Ty → Bool
  | .scalar _ => false
  | .array _ => true

/-- The declarations of a node: `VariableDeclarations`, then `Interface`. (`findDeclarations.cc:104-129`.) -/
def Elem.decls (e : Elem) : List Decl := e.locals ++ e.ins ++ e.inouts

/-- `findVariableDeclaration` (`arr` false), `findArrayDeclaration` (`arr` true): `findDeclarations.cc:93-178`. The list is the containing nodes in the document, nearest first. -/
def findDecl (arr : Bool) : List Elem → Name → Option Decl
  | [], _ => none
  | e :: rest, x => match e.decls.find? fun d => decide (d.name = x) && decide (d.ty.isArray = arr) with
    | some d => some d
    | none => findDecl arr rest x

/-- A reference. `ExpressionMap.gperf:47-108`: `BooleanVariable`, `IntegerVariable`, `RealVariable`, `StringVariable` (types 1, 2, 3, 4); `ArrayElement` of an array given by name or `ArrayVariable`; `ArrayVariable`. -/
inductive Ref where
  | var (t : Nat) (x : Name)
  | element (x : Name)
  | array (x : Name)
deriving DecidableEq

/-- `VariableReferenceFactory::check` (`VariableReferenceFactory.cc:55-95`), `factoryCheck<ArrayReference>` (`ArrayReferenceFactory.cc:91-147`), `ArrayVariableReferenceFactory::check`
(`ArrayVariableReferenceFactory.cc:50-61`). -/
def Ref.check (doc : List Elem) : Ref → Bool
  | .var t x => decide (t ∈ [1, 2, 3, 4]) && match findDecl false doc x with
    | some d => decide (d.ty = .scalar t)
    | none => false
  | .element x => (findDecl true doc x).isSome
  | .array _ => true

/-- `VariableReferenceFactory::allocate` (`VariableReferenceFactory.cc:97-126`), `parseArrayElement` (`ArrayReferenceFactory.cc:46-88`), `ArrayVariableReferenceFactory::allocate`
(`ArrayVariableReferenceFactory.cc:63-79`). -/
def Ref.make (chain : List Frame) : Ref → Option Obj
  | .var t x => match findVariable chain x with
    | some o => if o.ty = .scalar t ∨ (t = 3 ∧ o.ty = .scalar 2) then some o else none
    | none => none
  | .element x => match findVariable chain x with
    | some o => if o.ty.isArray then some o else none
    | none => none
  | .array x => match findVariable chain x with
    | some o => if o.ty.isArray then some o else none
    | none => none

/-- A plan is checked and then constructed: `parsePlan.cc:60-128`. What the reference is in the plan; `none` if it is refused. -/
def Ref.parse (path : List Elem) (chain : List Frame) (r : Ref) : Option Obj := if r.check (document path) then r.make chain else none

end Verif.Scope
