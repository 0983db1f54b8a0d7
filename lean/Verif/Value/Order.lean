import Verif.Value.Basic
/-
Model of comparison of values: `/repo/src/value/Value.cc:998-1158` (`equals`, `lessThan`),
`ArrayImpl.cc:307-320, 445-520` (`operator==`, `operator<` on arrays).
-/
namespace Verif.Value

/-- `std::string::operator<`: lexicographic, characters compared as `unsigned char`
(`std::char_traits<char>::lt`). `Value.cc:1067-1158`. -/
def strLt : Str → Str → Bool
  | [], [] => false
  | [], _ :: _ => true
  | _ :: _, [] => false
  | a :: as, b :: bs =>
    if a.toNat < b.toNat then true
    else if b.toNat < a.toNat then false
    else strLt as bs

/-- `operator<` on two `Integer`s. `Value.cc:1067-1158`. -/
def i32Lt (a b : I32) : Bool := decide (a.toInt < b.toInt)

/-- `operator<` on two `Boolean`s: `!a && b`, `ArrayImpl.cc:514-517`, `Value.cc:1117`. -/
def boolLt (a b : Bool) : Bool := !a && b

/-- `std::vector<T>::operator==` with the element equality `eq`. `ArrayImpl.cc:307-320`. -/
def vecEq {α} (eq : α → α → Bool) : List α → List α → Bool
  | [], [] => true
  | a :: as, b :: bs => eq a b && vecEq eq as bs
  | _, _ => false

/-- `ArrayImpl<T>::operator==`, `ArrayImpl.cc:307-320, 420-429`: known vectors, then *all* contents,
including the slots of unknown elements. -/
def Arr.eq {α} (eq : α → α → Bool) (a b : Arr α) : Bool :=
  if ¬ (a.known = b.known) then false
  else vecEq eq a.contents b.contents

/-- The loop of `operator<`, `ArrayImpl.cc:463-480, 502-519`. The model walks the two known vectors and
the two content vectors together; on a well-formed array this is indexing with `i`. -/
def arrLtLoop {α} (lt : α → α → Bool) :
    List Bool → List Bool → List α → List α → Bool
  | ka :: kas, kb :: kbs, x :: xs, y :: ys =>
    if !ka && kb then true
    else if ka && !kb then false
    else if !ka then arrLtLoop lt kas kbs xs ys
    else if lt x y then true
    else if lt y x then false
    else arrLtLoop lt kas kbs xs ys
  | _, _, _, _ => false

/-- `operator<(ArrayImpl<T> const &, ArrayImpl<T> const &)`, `ArrayImpl.cc:445-520`. -/
def Arr.lt {α} (lt : α → α → Bool) (a b : Arr α) : Bool :=
  if a.size < b.size then true
  else if a.size > b.size then false
  else arrLtLoop lt a.known b.known a.contents b.contents

/-- `Value::equals`, `Value.cc:998-1065`. -/
def Value.equals (a b : Value) : Bool :=
  match a, b with
  | .unknown _, .known _ => false
  | .known _, .unknown _ => false
  | .unknown ta, .unknown tb =>
    match ta with
    | .integer => if tb = .integer then true else if tb = .real then true else false
    | .real => if tb = .real then true else if tb = .integer then true else false
    | _ => decide (tb = ta)
  | .known (.int i), .known (.int j) => decide (i = j)
  | .known (.int i), .known (.real r) => Dbl.eq (.ofBits r) (.ofI32 i)
  | .known (.real r), .known (.real s) => f64Eq r s
  | .known (.real r), .known (.int j) => Dbl.eq (.ofBits r) (.ofI32 j)
  | .known (.bool x), .known (.bool y) => decide (x = y)
  | .known (.nodeState x), .known (.nodeState y) => decide (x = y)
  | .known (.outcome x), .known (.outcome y) => decide (x = y)
  | .known (.failure x), .known (.failure y) => decide (x = y)
  | .known (.handle x), .known (.handle y) => decide (x = y)
  | .known (.str x), .known (.str y) => decide (x = y)
  | .known (.boolArr x), .known (.boolArr y) => Arr.eq (fun a b => decide (a = b)) x y
  | .known (.intArr x), .known (.intArr y) => Arr.eq (fun a b => decide (a = b)) x y
  | .known (.realArr x), .known (.realArr y) => Arr.eq f64Eq x y
  | .known (.strArr x), .known (.strArr y) => Arr.eq (fun a b => decide (a = b)) x y
  | .known _, .known _ => false

/-- `Value::lessThan`, `Value.cc:1067-1158`. Mixed types compare by type code except Integer with Real. -/
def Value.lessThan (a b : Value) : Bool :=
  match a, b with
  | .unknown _, .known _ => true
  | .known _, .unknown _ => false
  | .unknown ta, .unknown tb =>
    match ta with
    | .integer =>
      if tb = .integer then false
      else if tb = .real then true
      else decide (VType.code .integer < tb.code)
    | .real =>
      if tb = .real then false
      else if tb = .integer then false
      else decide (VType.code .real < tb.code)
    | _ => if ta.code < tb.code then true else if tb.code < ta.code then false else false
  | .known (.int i), .known (.int j) => i32Lt i j
  | .known (.int i), .known (.real r) => Dbl.lt (.ofI32 i) (.ofBits r)
  | .known (.real r), .known (.real s) => f64Lt r s
  | .known (.real r), .known (.int j) => Dbl.lt (.ofBits r) (.ofI32 j)
  | .known (.bool x), .known (.bool y) => boolLt x y
  | .known (.nodeState x), .known (.nodeState y) => decide (x.toNat < y.toNat)
  | .known (.outcome x), .known (.outcome y) => decide (x.toNat < y.toNat)
  | .known (.failure x), .known (.failure y) => decide (x.toNat < y.toNat)
  | .known (.handle x), .known (.handle y) => decide (x.toNat < y.toNat)
  | .known (.str x), .known (.str y) => strLt x y
  | .known (.boolArr x), .known (.boolArr y) => Arr.lt boolLt x y
  | .known (.intArr x), .known (.intArr y) => Arr.lt i32Lt x y
  | .known (.realArr x), .known (.realArr y) => Arr.lt f64Lt x y
  | .known (.strArr x), .known (.strArr y) => Arr.lt strLt x y
  | .known p, .known q => decide (p.type.code < q.type.code)

/-- No `Real` inside the value (scalar, or a known array element) is a NaN. (Specification only; the values are those of `Value.hh`.) -/
def Payload.noNaN : Payload → Prop
  | .real r => Dbl.ofBits r ≠ .nan
  | .realArr a => ∀ r ∈ a.contents, Dbl.ofBits r ≠ .nan
  | _ => True

/-- Arrays inside the value have as many contents slots as known bits (the class invariant). (Specification only; `ArrayImpl.cc`.) -/
def Payload.wf : Payload → Prop
  | .boolArr a => a.WF | .intArr a => a.WF | .realArr a => a.WF | .strArr a => a.WF
  | _ => True

/-- A value for which the ordering laws are claimed. (Specification only; `Value.hh`.) -/
def Value.Ordinary : Value → Prop
  | .unknown _ => True
  | .known p => p.noNaN ∧ p.wf

end Verif.Value
