import Verif.Scope.Model
/-!
Lexical scoping of variables, as the PLEXIL language describes it, in terms of plan elements only: what a name designates inside a node is computed from
the node's declarations and from what names designate outside it.  Nothing here refers to maps, frames or expression objects.
-/
namespace Verif.Scope

/-- Where a value is kept: the variable `x` of the node at a distance from the root, or an expression (an argument or a default value). -/
inductive Cell
  | var (depth : Nat) (x : Name)
  | expr (depth : Nat) (x : Name)
deriving DecidableEq, Repr

/-- What a name designates. -/
structure Binding where
  cell : Cell
  ty : Ty
  writable : Bool
deriving DecidableEq, Repr

/-- Meanings of names. -/
abbrev Env := Name → Option Binding

/-- The declaration of a name in a list. -/
def declared (ds : List Decl) (x : Name) : Option Decl := ds.find? (fun d => decide (d.name = x))

/-- Inside a node: its own variables, its `In` variables (the outer meaning, read-only; or the default), its `InOut` variables (the outer meaning; or a new
variable with the default value), and otherwise the outer meaning. -/
def inside (outer : Env) (depth : Nat) (e : Elem) : Env := fun x =>
  match declared e.locals x with
  | some d => some ⟨.var depth x, d.ty, true⟩
  | none => match declared e.ins x with
    | some d => match outer x with
      | some b => some { b with writable := false }
      | none => some ⟨.expr depth x, d.ty, false⟩
    | none => match declared e.inouts x with
      | some d => match outer x with
        | some b => some b
        | none => some ⟨.var depth x, d.ty, true⟩
      | none => outer x

/-- What a called library sees: the names it is passed, and nothing else. -/
def passed (caller : Env) (depth : Nat) (args : List (Name × Arg)) : Env := fun x =>
  match args.lookup x with
  | some (.var y) => caller y
  | some (.other t) => some ⟨.expr depth x, t, false⟩
  | none => none

mutual
/-- The meaning of names in the first node of a path. -/
def envAt : List Elem → Env
  | [] => fun _ => none
  | e :: rest => inside (outerEnv rest) rest.length e
/-- The meaning of names just outside a child of the first node of a path. -/
def outerEnv : List Elem → Env
  | [] => fun _ => none
  | p :: rest => match p.kind with
    | .call args => passed (inside (outerEnv rest) rest.length p) rest.length args
    | _ => inside (outerEnv rest) rest.length p
end

/-- When a node may be declared in an environment. -/
structure Accepts (outer : Env) (depth : Nat) (e : Elem) : Prop where
  /-- no name is declared twice -/
  nodup : ((e.ins ++ e.inouts ++ e.locals).map Decl.name ++ e.mutexes).Nodup
  /-- an `In` variable exists outside with the same type, or has a default -/
  ins : ∀ d ∈ e.ins, match outer d.name with
    | some b => b.ty = d.ty
    | none => d.init = true
  /-- an `InOut` variable exists outside with the same type and is writable, or has a (scalar) default -/
  inouts : ∀ d ∈ e.inouts, match outer d.name with
    | some b => b.ty = d.ty ∧ b.writable = true
    | none => d.init = true ∧ ∃ t, d.ty = .scalar t
  /-- the variables passed to a library exist, and each is passed once -/
  args : ∀ args, e.kind = .call args → (args.map Prod.fst).Nodup ∧
    ∀ x y, (x, Arg.var y) ∈ args → (inside outer depth e y).isSome

/-- A plan accepted: each node in its environment. -/
def AcceptsPath : List Elem → Prop
  | [] => True
  | e :: rest => AcceptsPath rest ∧ Accepts (outerEnv rest) rest.length e

/-- The nodes above another in a path have children; and of those, each list node that is the root of a called library declares a variable. -/
def Shaped : List Elem → Prop
  | [] => True
  | e :: rest => (e.kind = .leaf → False) ∧ Shaped rest ∧
    (e.kind = .list → (∃ p r args, rest = p :: r ∧ p.kind = .call args) → e.locals ++ e.ins ++ e.inouts ≠ [])

/-- The path to a node: the nodes above it are shaped. -/
def ShapedPath (path : List Elem) : Prop := Shaped path.tail

end Verif.Scope
