import Verif.Keys.Model
import Mathlib.Data.List.Forall2
/-!
What C76-C78 are stated with.
-/
namespace Verif.Keys
open Verif.Value

/-- Two arrays are the same: same size, the same elements known, and known elements related. -/
def SameArr {α : Type} (r : α → α → Prop) (a b : Arr α) : Prop :=
  a.known = b.known ∧ ∀ (i : Nat) x y, a.known[i]? = some true → a.contents[i]? = some x → b.contents[i]? = some y → r x y

/-- The number a numeric value stands for. -/
def number : Payload → Option Dbl
  | .int i => some (.ofI32 i)
  | .real r => some (.ofBits r)
  | _ => none

/-- Two values are the same parameter: unknowns of one type; equal numbers; equal values of one other type; arrays of one type with the same known elements. -/
inductive SameValue : Value → Value → Prop
  | unknown (t : VType) : SameValue (.unknown t) (.unknown t)
  | num {p q : Payload} {d : Dbl} : number p = some d → number q = some d → SameValue (.known p) (.known q)
  | scalar {p : Payload} : SameValue (.known p) (.known p)
  | boolArr {a b : Arr Bool} : SameArr Eq a b → SameValue (.known (.boolArr a)) (.known (.boolArr b))
  | intArr {a b : Arr I32} : SameArr Eq a b → SameValue (.known (.intArr a)) (.known (.intArr b))
  | realArr {a b : Arr F64} : SameArr (fun x y => Dbl.ofBits x = Dbl.ofBits y) a b → SameValue (.known (.realArr a)) (.known (.realArr b))
  | strArr {a b : Arr Str} : SameArr Eq a b → SameValue (.known (.strArr a)) (.known (.strArr b))

/-- Two states are the same: name, number of parameters, parameters. -/
def SameState (a b : State) : Prop := a.name = b.name ∧ List.Forall₂ SameValue a.params b.params

/-- No NaN in any parameter. -/
def State.Ordinary (s : State) : Prop := ∀ v ∈ s.params, v.Ordinary

/-- What a map is: a partial function; what it answers. -/
def MapOp.spec {K V : Type} [DecidableEq K] (dflt : V) (f : K → Option V) : MapOp K V → (K → Option V) × MapRes V
  | .insert k v => match f k with
    | some _ => (f, .bool false)
    | none => (fun x => if x = k then some v else f x, .bool true)
  | .assign k v => (fun x => if x = k then some v else f x, .none)
  | .read k => (f, .val ((f k).getD dflt))
  | .find k => (f, .found (f k))

/-- A history of a map. -/
def specMap {K V : Type} [DecidableEq K] (dflt : V) : List (MapOp K V) → (K → Option V) → (K → Option V) × List (MapRes V)
  | [], f => (f, [])
  | o :: os, f => ((specMap dflt os (o.spec dflt f).1).1, (o.spec dflt f).2 :: (specMap dflt os (o.spec dflt f).1).2)

/-- What a set is: insertion and removal say whether they changed it. -/
def SetOp.spec {K : Type} [DecidableEq K] (f : K → Bool) : SetOp K → (K → Bool) × Bool
  | .insert k => (fun x => decide (x = k) || f x, !f k)
  | .erase k => (fun x => !decide (x = k) && f x, f k)
  | .contains k => (f, f k)

/-- A history of a set. -/
def specSet {K : Type} [DecidableEq K] : List (SetOp K) → (K → Bool) → (K → Bool) × List Bool
  | [], f => (f, [])
  | o :: os, f => ((specSet os (o.spec f).1).1, (o.spec f).2 :: (specSet os (o.spec f).1).2)

/-- A comparator is good: a strict total order, and `equal` is equality. -/
structure Comp.Good {K : Type} (c : Comp K) : Prop where
  irrefl : ∀ a, c.lt a a = false
  trans : ∀ a b d, c.lt a b = true → c.lt b d = true → c.lt a d = true
  total : ∀ a b, c.lt a b = false → c.lt b a = false → a = b
  equal : ∀ a b, c.equal a b = true ↔ a = b

end Verif.Keys
