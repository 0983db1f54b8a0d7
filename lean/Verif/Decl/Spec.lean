import Verif.Decl.Model

/-!
# What declarations and calls mean (specification)
-/
set_option autoImplicit false

namespace Verif.Decl.Spec
open Verif.Text (VT parseType)
open Verif.Decl

/-- A value of type `src` may be given where `dest` is declared: anything fits an undeclared type and
an expression whose type is only known later fits anything; otherwise the types are the same, or a
number is widened, or an array goes where any array may go. -/
def Fits (dest src : VT) : Prop :=
  dest = .unknown ∨ src = .unknown ∨ dest = src ∨
  ((dest = .date ∨ dest = .duration) ∧ (src = .real ∨ src = .integer)) ∨
  (dest = .real ∧ (src = .integer ∨ src = .date ∨ src = .duration)) ∨
  (dest = .array ∧ (src = .booleanArray ∨ src = .integerArray ∨ src = .realArray ∨ src = .stringArray))

/-- Arguments of these types agree with a declaration: as many as declared (or at least as many, if
it says so), each fitting the parameter in its place. -/
def Agree (s : Sym) (ts : List VT) : Prop :=
  (ts.length = s.params.length ∨ (s.anyParams = true ∧ s.params.length ≤ ts.length)) ∧
  ∀ (i : Nat) (p t : VT), s.params[i]? = some p → ts[i]? = some t → Fits p t

/-- All of these expressions are sound, and have these types. -/
def Typed (f : Ex → Option VT) (es : List Ex) (ts : List VT) : Prop := es.map f = ts.map some

/-- A numeric type, or one known only later. -/
def Numeric (t : VT) : Prop := t = .integer ∨ t = .real ∨ t = .date ∨ t = .duration ∨ t = .unknown

/-- A tolerance is only given to a lookup on change, and is a number. -/
def TolOk (c : LookupCall) : Prop :=
  ∀ e, c.tol = some e → c.onChange = true ∧ (∃ t, e.checked = some t ∧ Numeric t) ∧ (∃ t, e.made = some t ∧ Numeric t)

/-! ### Declarations as an author writes them -/

/-- A declared type: its name, and whether a maximal size makes it an array. -/
structure VD where
  typeName : String
  array : Bool

/-- The type meant. -/
def VD.type (v : VD) : VT := if v.array then arrayType (parseType v.typeName) else parseType v.typeName

/-- A proper type: one of the names, or `Any`; arrays only of the four basic types. -/
def VD.Proper (v : VD) : Prop :=
  (parseType v.typeName ≠ .unknown ∨ v.typeName = "Any") ∧
  (v.array = true → v.typeName = "Boolean" ∨ v.typeName = "Integer" ∨ v.typeName = "Real" ∨ v.typeName = "String")

/-- Its XML. -/
def VD.xml (tag : String) (v : VD) : Xml :=
  .elem tag (.elem "Type" [.text v.typeName] :: (if v.array then [.elem "MaxSize" [.text "10"]] else []))

/-- A global declaration: a command, a state, or a mutex. -/
inductive GD
  | command (name : String) (ret : Option VD) (params : List VD) (any : Bool)
  | state (name : String) (ret : VD) (params : List VD) (any : Bool)
  | mutex (name : String)

/-- The element allowing further parameters. -/
def anyXml (a : Bool) : List Xml := if a then [.elem "AnyParameters" []] else []

/-- Its XML. -/
def GD.xml : GD → Xml
  | .command n r ps a => .elem "CommandDeclaration"
      (.elem "Name" [.text n] :: ((r.map (VD.xml "Return")).toList ++ (ps.map (VD.xml "Parameter") ++ anyXml a)))
  | .state n r ps a => .elem "StateDeclaration"
      (.elem "Name" [.text n] :: VD.xml "Return" r :: (ps.map (VD.xml "Parameter") ++ anyXml a))
  | .mutex n => .elem "DeclareMutex" [.elem "Name" [.text n]]

/-- It is proper: it has a name, and its types are proper. -/
def GD.Proper : GD → Prop
  | .command n r ps _ => n ≠ "" ∧ (∀ v, r = some v → v.Proper) ∧ ∀ v ∈ ps, v.Proper
  | .state n r ps _ => n ≠ "" ∧ r.Proper ∧ ∀ v ∈ ps, v.Proper
  | .mutex n => n ≠ ""

/-- It declares the command of that name thus. -/
def GD.DeclaresCommand (d : GD) (n : String) (s : Sym) : Prop :=
  ∃ r ps a, d = .command n r ps a ∧
    s = { ret := match r with | some v => v.type | none => .unknown, params := ps.map VD.type, anyParams := a }

/-- It declares the state of that name thus. -/
def GD.DeclaresState (d : GD) (n : String) (s : Sym) : Prop :=
  ∃ r ps a, d = .state n r ps a ∧ s = { ret := r.type, params := ps.map VD.type, anyParams := a }

/-- The names of the commands declared, in order. -/
def commandNames (ds : List GD) : List String := ds.filterMap fun | .command n _ _ _ => some n | _ => none
/-- The names of the states declared, in order. -/
def stateNames (ds : List GD) : List String := ds.filterMap fun | .state n _ _ _ => some n | _ => none
/-- The names of the mutexes declared, in order. -/
def mutexNames (ds : List GD) : List String := ds.filterMap fun | .mutex n => some n | _ => none

/-! ### Lexical scope of declarations -/

mutual
/-- What is looked up where, when the table in force is simply that of the file being read. -/
def meaning {τ : Type} (env : Option τ) : Act τ → List (Nat × Option τ) × Bool
  | .use n => ([(n, env)], true)
  | .fail => ([], false)
  | .file t as => meanings (some t) as
  | .guarded t as => ((meanings (some t) as).1, true)
/-- The same for actions in a row. -/
def meanings {τ : Type} (env : Option τ) : List (Act τ) → List (Nat × Option τ) × Bool
  | [] => ([], true)
  | a :: as =>
    if (meaning env a).2 then ((meaning env a).1 ++ (meanings env as).1, (meanings env as).2) else meaning env a
end

end Verif.Decl.Spec
