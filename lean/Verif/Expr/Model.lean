import Verif.Value.Order
/-
Model of the operators of the PLEXIL expression language and of their evaluation:
`/repo/src/expr/{BooleanOperators,ArithmeticOperators,Comparisons,ConversionOperators,StringOperators,
ArrayOperators,OperatorImpl,Operator,Function,CachedFunction,GetValueImpl,Constant,Expression}.cc`.

Conventions.  A C++ `bool getValue(T &result)` becomes a function to `Ans T`: `ok (some x)` (returned true
and set `result := x`), `ok none` (returned false, "unknown") or an error.
An `Integer` is the mathematical integer of its `int32_t`; a `Real` is a `Dbl` (NaN, infinities, exact
finite doubles); +0 and -0 are one value.  The rounding operations of double arithmetic are not
interpreted: they are the parameter `FloatOps`.
-/
namespace Verif.Expr
open Verif.Value

/-- What can go wrong in an evaluation. `abort`: `reportPlanError` / `errorMsg`, i.e. the exception or the
`assert(false)` of `PlanError.cc:66-77`, `Error.cc:114-119`.  `ub`: undefined behaviour in C++
(signed overflow, reading an uninitialised variable, converting a NaN to an integer). -/
inductive Err
  | abort | ub
deriving DecidableEq, Repr

/-- The answer of a `getValue` / `getValuePointer` method, `Expression.hh`. -/
abbrev Ans (α : Type) := Except Err (Option α)

/-- Call a `getValue` method and look at what came back; an error in it is an error of the caller. As in `Comparisons.cc:59-91`. -/
def ask {α β} (a : Except Err α) (k : α → Except Err β) : Except Err β :=
  match a with
  | .error e => .error e
  | .ok x => k x

/-- The double arithmetic the code uses (`+ - * /`, `fmod`, `sqrt`), uninterpreted. `ArithmeticOperators.cc`. -/
structure FloatOps where
  add : Dbl → Dbl → Dbl
  sub : Dbl → Dbl → Dbl
  mul : Dbl → Dbl → Dbl
  div : Dbl → Dbl → Dbl
  fmod : Dbl → Dbl → Dbl
  sqrt : Dbl → Dbl

/-- Everything an operator can ask of an argument expression: `valueType()`, `isKnown()`,
`getValue(Boolean/Integer/Real/String)`, `getValue` of an internal enumeration, `getValuePointer(String)`,
`getValuePointer(Array)`; `Expression.hh`. -/
structure Acc where
  type : VType
  isKnown : Except Err Bool
  getB : Ans Bool
  getI : Ans Int
  getR : Ans Dbl
  getS : Ans Str
  ptrS : Ans Str
  ptrA : Ans Payload
  getN : VType → Ans Byte

/-- Is it an array type? `ValueType.cc` `isArrayType`. -/
def isArrayType : VType → Bool
  | .booleanArray | .integerArray | .realArray | .stringArray => true
  | _ => false

/-- `isNumericType`, `ValueType.cc:132-144`. -/
def isNumericType : VType → Bool
  | .integer | .real | .date | .duration => true
  | _ => false

/-- The four internal enumeration types, `ValueType.cc` `isInternalType`. -/
def isInternalType : VType → Bool
  | .nodeState | .outcome | .failure | .commandHandle => true
  | _ => false

/-- A leaf (constant, variable: `GetValueImpl<T>`) of type `t` currently holding `v` (`none`: unknown).
`GetValueImpl.cc:35-179`, `Constant.cc:133-178`; asking for any other type is the default of
`Expression.cc:121-166`: a plan error, except `Real` from an `Integer` expression, which promotes
(`GetValueImpl.cc:122-130`). -/
def leafAcc (t : VType) (v : Option Payload) : Acc :=
  { type := t
    isKnown := .ok v.isSome
    getB := if t = .boolean then .ok (match v with | some (.bool b) => some b | _ => none) else .error .abort
    getI := if t = .integer then .ok (match v with | some (.int i) => some i.toInt | _ => none) else .error .abort
    getR :=
      if t = .real then .ok (match v with | some (.real r) => some (.ofBits r) | _ => none)
      else if t = .integer then .ok (match v with | some (.int i) => some (.ofI32 i) | _ => none)
      else .error .abort
    getS := if t = .string then .ok (match v with | some (.str s) => some s | _ => none) else .error .abort
    ptrS := if t = .string then .ok (match v with | some (.str s) => some s | _ => none) else .error .abort
    ptrA := if isArrayType t then .ok v else .error .abort
    getN := fun t' =>
      if t = t' ∧ isInternalType t = true then
        .ok (match v with
          | some (.nodeState x) => some x | some (.outcome x) => some x
          | some (.failure x) => some x | some (.handle x) => some x | _ => none)
      else .error .abort }

/-! ### Boolean operators, `BooleanOperators.cc` -/

/-- `BooleanNot::operator()`, `BooleanOperators.cc:49-56`. -/
def notOp (a : Ans Bool) : Ans Bool :=
  ask a fun
  | none => .ok none
  | some x => .ok (some (!x))

/-- `BooleanOr::operator()` for two operands, `BooleanOperators.cc:78-98`. -/
def or2 (a b : Ans Bool) : Ans Bool :=
  ask a fun
  | some true => .ok (some true)
  | some false =>
    ask b fun
    | some t => .ok (some t)
    | none => .ok none
  | none =>
    ask b fun
    | some true => .ok (some true)
    | _ => .ok none

/-- The loop of the n-ary `BooleanOr::operator()`, `BooleanOperators.cc:100-118`. -/
def orLoop : List (Ans Bool) → Bool → Ans Bool
  | [], anyKnown => if anyKnown then .ok (some false) else .ok none
  | a :: as, anyKnown =>
    ask a fun
    | some true => .ok (some true)
    | some false => orLoop as true
    | none => orLoop as anyKnown

/-- `BooleanOr` for one, two or any other number of operands, `BooleanOperators.cc:73-118`;
the dispatch on the number is `Function.cc:192-541`. -/
def orOp : List (Ans Bool) → Ans Bool
  | [a] => a
  | [a, b] => or2 a b
  | as => orLoop as false

/-- `BooleanAnd::operator()` for two operands, `BooleanOperators.cc:144-165`. -/
def and2 (a b : Ans Bool) : Ans Bool :=
  ask a fun
  | some false => .ok (some false)
  | some true =>
    ask b fun
    | some t => .ok (some t)
    | none => .ok none
  | none =>
    ask b fun
    | some false => .ok (some false)
    | _ => .ok none

/-- The loop of the n-ary `BooleanAnd::operator()`, `BooleanOperators.cc:167-186`. -/
def andLoop : List (Ans Bool) → Bool → Ans Bool
  | [], allKnown => if allKnown then .ok (some true) else .ok none
  | a :: as, allKnown =>
    ask a fun
    | some false => .ok (some false)
    | some true => andLoop as allKnown
    | none => andLoop as false

/-- `BooleanAnd`, `BooleanOperators.cc:139-186`. -/
def andOp : List (Ans Bool) → Ans Bool
  | [a] => a
  | [a, b] => and2 a b
  | as => andLoop as true

/-- `BooleanXor::operator()` for two operands, `BooleanOperators.cc:208-217`. -/
def xor2 (a b : Ans Bool) : Ans Bool :=
  ask a fun
  | none => .ok none
  | some x =>
    ask b fun
    | none => .ok none
    | some y => .ok (some (x != y))

/-- The loop of the n-ary `BooleanXor::operator()`, `BooleanOperators.cc:219-233`, as written: a *known*
operand makes it return false at once (`:226-227`), an unknown one leaves `temp2` uninitialised and then
uses it (`:228`). -/
def xorLoop : List (Ans Bool) → Ans Bool
  | [] => .ok (some false)
  | a :: _ =>
    ask a fun
    | some _ => .ok none
    | none => .error .ub

/-- `BooleanXor`, `BooleanOperators.cc:203-233`. -/
def xorOp : List (Ans Bool) → Ans Bool
  | [a] => a
  | [a, b] => xor2 a b
  | as => xorLoop as

/-! ### Comparisons, `Comparisons.cc` -/

/-- The common shape of all binary comparisons and of two-operand arithmetic:
`if (!argA->getValue(tempA) || !argB->getValue(tempB)) return false; result = f(tempA, tempB); return true;`
`Comparisons.cc:59-91, 251-361`, `ArithmeticOperators.cc:62-70` and its siblings. -/
def both {α β γ} (a : Ans α) (b : Ans β) (f : α → β → Except Err (Option γ)) : Ans γ :=
  ask a fun
  | none => .ok none
  | some x =>
    ask b fun
    | none => .ok none
    | some y => f x y

/-- `isEqual`, `Comparisons.cc:117-159`: dispatch on the type of the first operand. Array equality is
`Array::operator==` (`ArrayImpl.cc:307-320`), false across element types. -/
def isEqual (a b : Acc) : Ans Bool :=
  match a.type with
  | .unknownT => .ok none
  | .boolean => both a.getB b.getB (fun x y => .ok (some (decide (x = y))))
  | .integer =>
    if b.type = .integer then both a.getI b.getI (fun x y => .ok (some (decide (x = y))))
    else both a.getR b.getR (fun x y => .ok (some (Dbl.eq x y)))
  | .real => both a.getR b.getR (fun x y => .ok (some (Dbl.eq x y)))
  | .string => both a.ptrS b.ptrS (fun x y => .ok (some (decide (x = y))))
  | .booleanArray | .integerArray | .realArray | .stringArray =>
    both a.ptrA b.ptrA (fun x y => .ok (some (Value.equals (.known x) (.known y))))
  | .nodeState => both (a.getN .nodeState) (b.getN .nodeState) (fun x y => .ok (some (decide (x = y))))
  | .outcome => both (a.getN .outcome) (b.getN .outcome) (fun x y => .ok (some (decide (x = y))))
  | .failure => both (a.getN .failure) (b.getN .failure) (fun x y => .ok (some (decide (x = y))))
  | .commandHandle =>
    both (a.getN .commandHandle) (b.getN .commandHandle) (fun x y => .ok (some (decide (x = y))))
  | .date | .duration | .stateT => .error .abort

/-- `NotEqual::operator()`, `Comparisons.cc:201-208`. -/
def isNotEqual (a b : Acc) : Ans Bool :=
  ask (isEqual a b) fun
  | none => .ok none
  | some r => .ok (some (!r))

/-- The four order comparisons. `Comparisons.cc:251-361`. -/
inductive Rel
  | gt | ge | lt | le
deriving DecidableEq, Repr

/-- The template argument of the order comparisons, `Comparisons.cc:369-383`. -/
inductive CmpTy
  | int | real | str
deriving DecidableEq, Repr

/-- `tempA > tempB` etc. on `Integer`, `Comparisons.cc:259, 293, 327, 359`. -/
def relInt : Rel → Int → Int → Bool
  | .gt, a, b => decide (a > b)
  | .ge, a, b => decide (a ≥ b)
  | .lt, a, b => decide (a < b)
  | .le, a, b => decide (a ≤ b)

/-- The same on `Real`: IEEE comparisons, false if an operand is NaN. `Comparisons.cc:251-361`. -/
def relReal : Rel → Dbl → Dbl → Bool
  | .gt, a, b => Dbl.lt b a
  | .ge, a, b => Dbl.lt b a || Dbl.eq a b
  | .lt, a, b => Dbl.lt a b
  | .le, a, b => Dbl.lt a b || Dbl.eq a b

/-- The same on `String`: `std::string` comparison operators. `Comparisons.cc:251-361`. -/
def relStr : Rel → Str → Str → Bool
  | .gt, a, b => strLt b a
  | .ge, a, b => !strLt a b
  | .lt, a, b => strLt a b
  | .le, a, b => !strLt b a

/-- `GreaterThan<T>::operator()` and the other three, `Comparisons.cc:251-361`. -/
def cmpOp (r : Rel) (t : CmpTy) (a b : Acc) : Ans Bool :=
  match t with
  | .int => both a.getI b.getI (fun x y => .ok (some (relInt r x y)))
  | .real => both a.getR b.getR (fun x y => .ok (some (relReal r x y)))
  | .str => both a.getS b.getS (fun x y => .ok (some (relStr r x y)))

/-! ### Arithmetic, `ArithmeticOperators.cc` -/

/-- Does the integer fit in an `int32_t`? `ValueType.hh:50-60`. -/
def InI32 (n : Int) : Prop := -2147483648 ≤ n ∧ n ≤ 2147483647

instance (n : Int) : Decidable (InI32 n) := by unfold InI32; infer_instance

/-- The result of an `int32_t` operation: signed overflow is undefined behaviour. `ArithmeticOperators.cc`. -/
def ck (n : Int) : Ans Int := if InI32 n then .ok (some n) else .error .ub

/-- Unary minus on doubles. `ArithmeticOperators.cc`. -/
def Dbl.neg : Dbl → Dbl
  | .nan => .nan | .ninf => .pinf | .pinf => .ninf | .fin k => .fin (-k)

/-- A loop `for i: if (!args[i]->getValue(temp)) return false; working = f(working, temp)`,
`ArithmeticOperators.cc:77-85, 144-150, 191-200, 307-318, 357-368`. -/
def foldArgs {α} (f : α → α → Ans α) : List (Ans α) → α → Ans α
  | [], w => .ok (some w)
  | a :: as, w =>
    ask a fun
    | none => .ok none
    | some x =>
      ask (f w x) fun
      | none => .ok none
      | some w' => foldArgs f as w'

/-- `working := args[0]` and then the loop from 1. `ArithmeticOperators.cc`. -/
def foldArgs1 {α} (f : α → α → Ans α) : List (Ans α) → Ans α
  | [] => .error .ub
  | a :: as =>
    ask a fun
    | none => .ok none
    | some x => foldArgs f as x

/-- The arithmetic operators that exist both for `Integer` and `Real`. `ArithmeticOperators.cc`. -/
inductive Arith
  | add | sub | mul | div | mod | min | max | abs
deriving DecidableEq, Repr

/-- Two-operand `calc` on `Integer`, `ArithmeticOperators.cc:62-70, 118-126, 176-184, 220-229, 248-257,
293-301, 343-351`. Division and remainder truncate towards zero; a zero divisor gives unknown. -/
def arith2I : Arith → Int → Int → Ans Int
  | .add, x, y => ck (x + y)
  | .sub, x, y => ck (x - y)
  | .mul, x, y => ck (x * y)
  | .div, x, y => if y = 0 then .ok none else ck (x.tdiv y)
  | .mod, x, y =>
    if y = 0 then .ok none
    else if InI32 (x.tdiv y) then .ok (some (x.tmod y)) else .error .ub
  | .min, x, y => .ok (some (if x < y then x else y))
  | .max, x, y => .ok (some (if x > y then x else y))
  | .abs, _, _ => .error .abort

/-- Two-operand `calc` on `Real`; same lines, with `fmod` at `:260-269`. -/
def arith2R (F : FloatOps) : Arith → Dbl → Dbl → Ans Dbl
  | .add, x, y => .ok (some (F.add x y))
  | .sub, x, y => .ok (some (F.sub x y))
  | .mul, x, y => .ok (some (F.mul x y))
  | .div, x, y => if Dbl.eq y (.fin 0) then .ok none else .ok (some (F.div x y))
  | .mod, x, y => if Dbl.eq y (.fin 0) then .ok none else .ok (some (F.fmod x y))
  | .min, x, y => .ok (some (if Dbl.lt x y then x else y))
  | .max, x, y => .ok (some (if Dbl.lt y x then x else y))
  | .abs, _, _ => .error .abort

/-- The `Integer` arithmetic operators as a whole (`operator()` of `OperatorImpl<Integer>` calling `calc`,
`OperatorImpl.cc:127-170`; `calc` in `ArithmeticOperators.cc`).  Numbers of operands for which an operator
has no `calc` method end in `OperatorImpl.cc:321-342`: a plan error. -/
def arithI (o : Arith) (as : List (Ans Int)) : Ans Int :=
  match o, as with
  | .add, [a] => a
  | .sub, [a] => ask a fun | none => .ok none | some x => ck (-x)
  | .mul, [a] => a
  | .min, [a] => a
  | .max, [a] => a
  | .abs, [a] => ask a fun | none => .ok none | some x => if x < 0 then ck (-x) else .ok (some x)
  | .abs, _ => .error .abort
  | .div, [a, b] => both a b (arith2I .div)
  | .mod, [a, b] => both a b (arith2I .mod)
  | .div, _ => .error .abort
  | .mod, _ => .error .abort
  | o, [a, b] => both a b (arith2I o)
  | .add, as => foldArgs (arith2I .add) as 0
  | .sub, [] => .error .abort
  | .sub, as => foldArgs1 (arith2I .sub) as
  | .mul, as => foldArgs1 (arith2I .mul) as
  | .min, as => foldArgs1 (fun w x => .ok (some (if x < w then x else w))) as
  | .max, as => foldArgs1 (fun w x => .ok (some (if x > w then x else w))) as

/-- The `Real` arithmetic operators as a whole; same lines of `ArithmeticOperators.cc`,
`OperatorImpl.cc:121-165, 295-319`. -/
def arithR (F : FloatOps) (o : Arith) (as : List (Ans Dbl)) : Ans Dbl :=
  match o, as with
  | .add, [a] => a
  | .sub, [a] => ask a fun | none => .ok none | some x => .ok (some (Dbl.neg x))
  | .mul, [a] => a
  | .min, [a] => a
  | .max, [a] => a
  | .abs, [a] =>
    ask a fun
    | none => .ok none
    | some x => .ok (some (if Dbl.lt x (.fin 0) then Dbl.neg x else x))
  | .abs, _ => .error .abort
  | .div, [a, b] => both a b (arith2R F .div)
  | .mod, [a, b] => both a b (arith2R F .mod)
  | .div, _ => .error .abort
  | .mod, _ => .error .abort
  | o, [a, b] => both a b (arith2R F o)
  | .add, as => foldArgs (arith2R F .add) as (.fin 0)
  | .sub, [] => .error .abort
  | .sub, as => foldArgs1 (arith2R F .sub) as
  | .mul, as => foldArgs1 (arith2R F .mul) as
  | .min, as => foldArgs1 (fun w x => .ok (some (if Dbl.lt x w then x else w))) as
  | .max, as => foldArgs1 (fun w x => .ok (some (if Dbl.lt w x then x else w))) as

/-- `SquareRoot<Real>::calc`, `ArithmeticOperators.cc:423-433` (with `HAVE_SQRT`). -/
def sqrtOp (F : FloatOps) (a : Ans Dbl) : Ans Dbl :=
  ask a fun
  | none => .ok none
  | some x => if Dbl.lt x (.fin 0) then .ok none else .ok (some (F.sqrt x))

/-! ### Conversions, `ConversionOperators.cc` -/

/-- One in units of the least positive double. `ConversionOperators.cc`. -/
def unit : Int := ((2 ^ 1074 : Nat) : Int)

/-- The four rounding functions of `<cmath>`. `ConversionOperators.cc`. -/
inductive Conv
  | ceil | floor | round | trunc
deriving DecidableEq, Repr

/-- What `ceil`, `floor`, `round` (halves away from zero) and `trunc` do to the finite number `k / unit`,
in units of 1 (exact in IEEE arithmetic). `ConversionOperators.cc`. -/
def convInt : Conv → Int → Int
  | .ceil, k => -((-k) / unit)
  | .floor, k => k / unit
  | .round, k => if 0 ≤ k then (2 * k + unit) / (2 * unit) else -((2 * (-k) + unit) / (2 * unit))
  | .trunc, k => k.tdiv unit

/-- `ceil` etc. on doubles: NaN and infinities are unchanged. `ConversionOperators.cc`. -/
def convReal (c : Conv) : Dbl → Dbl
  | .fin k => .fin (convInt c k * unit)
  | d => d

/-- `RealToInt`, `ConversionOperators.cc:45-57`.  A NaN passes the range test and its conversion to
`Integer` is undefined.  `(Integer) reel` truncates. -/
def realToInt : Dbl → Ans Int
  | .nan => .error .ub
  | .ninf => .ok none
  | .pinf => .ok none
  | .fin k =>
    if k < -2147483648 * unit ∨ k > 2147483647 * unit then .ok none
    else
      let t := k.tdiv unit
      if k - t * unit ≠ 0 then .ok none else .ok (some t)

/-- `ConversionOperator<Real>::calc` and `calcInternal`, `ConversionOperators.cc:109-115, 127-203`.
`isKnown()` of a numeric argument is true exactly if `getValue(Real)` succeeds; the model asks the latter
(simplification: the two virtual calls are one). -/
def convRealOp (c : Conv) (a : Ans Dbl) : Ans Dbl :=
  ask a fun
  | none => .ok none
  | some x => .ok (some (convReal c x))

/-- `ConversionOperator<Integer>::calc`, `ConversionOperators.cc:96-107`. -/
def convIntOp (c : Conv) (a : Ans Dbl) : Ans Int :=
  ask (convRealOp c a) fun
  | none => .ok none
  | some x => realToInt x

/-- `RealToInteger::calc`, `ConversionOperators.cc:224-231`. -/
def realToIntOp (a : Ans Dbl) : Ans Int :=
  ask a fun
  | none => .ok none
  | some x => realToInt x

/-! ### Strings and arrays -/

/-- `size_t` to `Integer`: modulo 2³² (`StringOperators.cc:119`, `ArrayOperators.cc:59`). -/
def sizeToInt (n : Nat) : Int := (BitVec.ofNat 32 n).toInt

/-- `StringConcat::operator()`, `StringOperators.cc:57-94`: one operand through `getValue(String)`, more
through `getValuePointer(String)`. -/
def concatOp : List Acc → Ans Str
  | [a] => a.getS
  | as => go as []
where
  /-- the loop `:82-92` -/
  go : List Acc → Str → Ans Str
    | [], w => .ok (some w)
    | a :: as, w =>
      ask a.ptrS fun
      | none => .ok none
      | some s => go as (w ++ s)

/-- `StringLength::operator()(Integer &, …)`, `StringOperators.cc:114-121`. -/
def strlenOp (a : Acc) : Ans Int :=
  ask a.ptrS fun
  | none => .ok none
  | some s => .ok (some (sizeToInt s.length))

/-- The known-bit vector of an array payload. `ArrayImpl.hh`, `m_known` of `Array.hh`. -/
def knownBits : Payload → List Bool
  | .boolArr a => a.known | .intArr a => a.known | .realArr a => a.known | .strArr a => a.known
  | _ => []

/-- `ArraySize::operator()` and `ArrayMaxSize::operator()`, `ArrayOperators.cc:54-61, 83-91`. -/
def arraySizeOp (a : Acc) : Ans Int :=
  ask a.ptrA fun
  | none => .ok none
  | some p => .ok (some (sizeToInt (knownBits p).length))

/-- `AllElementsKnown::operator()`, `ArrayOperators.cc:124-131`, `Array::allElementsKnown`, `Array.cc`. -/
def allKnownOp (a : Acc) : Ans Bool :=
  ask a.ptrA fun
  | none => .ok none
  | some p => .ok (some ((knownBits p).all id))

/-- `AnyElementsKnown::operator()`, `ArrayOperators.cc:142-149`, `Array::anyElementsKnown`, `Array.cc`. -/
def anyKnownOp (a : Acc) : Ans Bool :=
  ask a.ptrA fun
  | none => .ok none
  | some p => .ok (some ((knownBits p).any id))

/-! ### Operators and functions -/

/-- Template argument of the numeric operators. `ArithmeticOperators.cc`. -/
inductive NumTy
  | int | real
deriving DecidableEq, Repr

/-- The operator objects (`Operator` subclasses with a singleton `instance()`). Classes of `/repo/src/expr/*Operators.cc` and `Comparisons.cc`. -/
inductive Op
  | not | or | and | xor | isKnown | eq | ne
  | cmp (r : Rel) (t : CmpTy)
  | arith (o : Arith) (t : NumTy)
  | sqrt
  | conv (c : Conv) (t : NumTy)
  | realToInt
  | concat | strlen | arraySize | arrayMaxSize | allKnown | anyKnown
deriving DecidableEq, Repr

/-- `OperatorImpl<R>::valueType`, `OperatorImpl.cc:54-69`. -/
def Op.type : Op → VType
  | .not | .or | .and | .xor | .isKnown | .eq | .ne | .cmp _ _ | .allKnown | .anyKnown => .boolean
  | .arith _ .int | .conv _ .int | .realToInt | .strlen | .arraySize | .arrayMaxSize => .integer
  | .arith _ .real | .conv _ .real | .sqrt => .real
  | .concat => .string

/-- `Function::getValue(Boolean &)`: `(*m_op)(result, …)` for the operators with a Boolean result
(`Function.cc:329-337, 400-408, 252-258`), a plan error for the others (`Operator.cc:72-103`) and for
operand counts the operator does not implement (`OperatorImpl.cc:295-319`). -/
def callB (op : Op) (as : List Acc) : Ans Bool :=
  match op, as with
  | .not, [a] => notOp a.getB
  | .or, as => orOp (as.map (·.getB))
  | .and, as => andOp (as.map (·.getB))
  | .xor, as => xorOp (as.map (·.getB))
  | .isKnown, [a] => match a.isKnown with | .error e => .error e | .ok k => .ok (some k)
  | .eq, [a, b] => isEqual a b
  | .ne, [a, b] => isNotEqual a b
  | .cmp r t, [a, b] => cmpOp r t a b
  | .allKnown, [a] => allKnownOp a
  | .anyKnown, [a] => anyKnownOp a
  | _, _ => .error .abort

/-- `Function::getValue(Integer &)`. `Function.cc`. -/
def callI (op : Op) (as : List Acc) : Ans Int :=
  match op, as with
  | .arith o .int, as => arithI o (as.map (·.getI))
  | .conv c .int, [a] => convIntOp c a.getR
  | .realToInt, [a] => realToIntOp a.getR
  | .strlen, [a] => strlenOp a
  | .arraySize, [a] => arraySizeOp a
  | .arrayMaxSize, [a] => arraySizeOp a
  | _, _ => .error .abort

/-- Promotion of an `Integer` result, `OperatorImpl.cc:182-209`. -/
def promote (a : Ans Int) : Ans Dbl :=
  ask a fun
  | none => .ok none
  | some i => .ok (some (.fin (i * unit)))

/-- `Function::getValue(Real &)`.  An `Integer` operator is asked through
`OperatorImpl<Integer>::operator()(Real &, …)`, which calls `calc` (`OperatorImpl.cc:182-209`); `StringLength`,
`ArraySize` and `ArrayMaxSize` define `operator()(Integer &, …)` but no `calc`, so they end in the default
`calc`, a plan error (`OperatorImpl.cc:321-326`). -/
def callR (F : FloatOps) (op : Op) (as : List Acc) : Ans Dbl :=
  match op, as with
  | .arith o .real, as => arithR F o (as.map (·.getR))
  | .arith o .int, as => promote (arithI o (as.map (·.getI)))
  | .sqrt, [a] => sqrtOp F a.getR
  | .conv c .real, [a] => convRealOp c a.getR
  | .conv c .int, [a] => promote (convIntOp c a.getR)
  | .realToInt, [a] => promote (realToIntOp a.getR)
  | _, _ => .error .abort

/-- `CachedFunction::getValue(String &)` and `getValuePointer(String const *&)`, `CachedFunction.cc:71-85,
243-264, 323-338, 402-417`. -/
def callS (op : Op) (as : List Acc) : Ans Str :=
  match op with
  | .concat => concatOp as
  | _ => .error .abort

/-- `OperatorImpl<R>::isKnown(Function const &)`, `OperatorImpl.cc:213-234`: try to get the value. -/
def knownOf {α} (a : Ans α) : Except Err Bool :=
  ask a fun
  | none => .ok false
  | some _ => .ok true

/-- A function object as an argument of another one: `Function.cc`, `CachedFunction.cc`. -/
def fnAcc (F : FloatOps) (op : Op) (as : List Acc) : Acc :=
  { type := op.type
    isKnown :=
      match op.type with
      | .boolean => knownOf (callB op as)
      | .integer => knownOf (callI op as)
      | .real => knownOf (callR F op as)
      | _ => knownOf (callS op as)
    getB := callB op as
    getI := callI op as
    getR := callR F op as
    getS := callS op as
    ptrS := callS op as
    ptrA := .error .abort
    getN := fun _ => .error .abort }

/-- An expression object: a leaf of a static type, or a function. Leaves stand for constants and variables;
lookups, array references and node functions are not modelled here. `Expression.hh`, `Function.hh`. -/
inductive Expr
  | leaf (t : VType) (i : Nat)
  | fn (op : Op) (args : List Expr)

/-- `Expression::valueType`. `Expression.hh`, `Function.cc`. -/
def Expr.type : Expr → VType
  | .leaf t _ => t
  | .fn op _ => op.type

/-- Current values of the leaves. `UserVariable.cc`, `Constant.cc`. -/
abbrev Env := Nat → Option Payload

mutual
/-- What an expression answers in an environment. `Function.cc`, `GetValueImpl.cc`. -/
def Expr.acc (F : FloatOps) (env : Env) : Expr → Acc
  | .leaf t i => leafAcc t (env i)
  | .fn op args => fnAcc F op (Expr.accs F env args)
/-- The same for a list of operands. `ExprVec.cc`. -/
def Expr.accs (F : FloatOps) (env : Env) : List Expr → List Acc
  | [] => []
  | e :: es => e.acc F env :: Expr.accs F env es
end

/-! ### The parser's part: operation names, type checks, choice of the operator -/

/-- The operation names registered in `ExpressionMap.gperf:40-112` (the five `EQ…`/`NE…` names of one class are one constructor). -/
inductive Name
  | ABS | ADD | ALL_KNOWN | AND | ANY_KNOWN | ArraySize | ArrayMaxSize | CEIL | Concat | DIV | EQ | FLOOR
  | GE | GT | IsKnown | LE | LT | MAX | MIN | MOD | MUL | NE | NOT | OR | REAL_TO_INT | ROUND | SQRT
  | STRLEN | SUB | TRUNC | XOR
deriving DecidableEq, Repr

/-- `OperationBase::checkArgCount` with the bounds given at registration: `OperationFactory.hh:54-117`,
`Operations.cc:53-56` and the constructors of the operation classes. -/
def Name.countOK : Name → Nat → Bool
  | .ABS, n => n == 1
  | .ADD, n | .DIV, n | .MAX, n | .MIN, n | .MUL, n | .SUB, n => decide (1 ≤ n)
  | .MOD, n => n == 2
  | .AND, _ | .OR, _ | .XOR, _ | .Concat, _ => true
  | .NOT, n | .STRLEN, n | .IsKnown, n => n == 1
  | .ALL_KNOWN, n | .ANY_KNOWN, n | .ArraySize, n | .ArrayMaxSize, n => n == 1
  | .CEIL, n | .FLOOR, n | .ROUND, n | .TRUNC, n | .REAL_TO_INT, n | .SQRT, n => n == 1
  | .EQ, n | .NE, n | .GE, n | .GT, n | .LE, n | .LT, n => n == 2

/-- `allSameTypeOrUnknown`, `Operations.cc:89-96`. -/
def allSameTypeOrUnknown (t : VType) (ts : List VType) : Bool := ts.all (fun x => x == t || x == .unknownT)

/-- `canBeEqual`, `Operations.cc:525-541`. -/
def canBeEqual (a b : VType) : Bool :=
  a == b || a == .unknownT || b == .unknownT || (isNumericType a && isNumericType b)

/-- `canBeCompared`, `Operations.cc:597-610`. -/
def canBeCompared (a b : VType) : Bool :=
  if a == .unknownT || b == .unknownT then true
  else if isNumericType a then isNumericType b
  else if a == .string then b == .string
  else false

/-- `checkArgTypes` of the operation classes, `Operations.cc:120-123, 230-233, 347-353, 416-419, 480-483,
558-562, 686-689, 749-752`. -/
def Name.typesOK : Name → List VType → Bool
  | .ABS, ts | .ADD, ts | .DIV, ts | .MAX, ts | .MIN, ts | .MOD, ts | .MUL, ts | .SUB, ts =>
    ts.all (fun t => isNumericType t || t == .unknownT)
  | .AND, ts | .OR, ts | .XOR, ts | .NOT, ts => allSameTypeOrUnknown .boolean ts
  | .Concat, ts | .STRLEN, ts => allSameTypeOrUnknown .string ts
  | .IsKnown, _ => true
  | .ALL_KNOWN, ts | .ANY_KNOWN, ts | .ArraySize, ts | .ArrayMaxSize, ts => isArrayType (ts.headD .unknownT)
  | .CEIL, ts | .FLOOR, ts | .ROUND, ts | .TRUNC, ts | .REAL_TO_INT, ts | .SQRT, ts =>
    isNumericType (ts.headD .unknownT) || ts.headD .unknownT == .unknownT
  | .EQ, ts | .NE, ts => canBeEqual (ts.headD .unknownT) (ts.tail.headD .unknownT)
  | .GE, ts | .GT, ts | .LE, ts | .LT, ts => canBeCompared (ts.headD .unknownT) (ts.tail.headD .unknownT)

/-- The loop of `arithmeticCommonType`, `Operations.cc:303-320`. -/
def commonLoop : List VType → VType → VType
  | [], r => r
  | t :: ts, r =>
    match t with
    | .real | .date | .duration => commonLoop ts .real
    | .unknownT | .integer => commonLoop ts (if r ≠ .real then .integer else r)
    | _ => .unknownT

/-- `arithmeticCommonType`, `Operations.cc:275-325`. -/
def arithmeticCommonType (ts : List VType) (desired : VType) : VType :=
  match ts with
  | [] => .unknownT
  | t :: ts =>
    match t with
    | .real | .date | .duration => commonLoop ts .real
    | .integer => commonLoop ts .integer
    | .unknownT => commonLoop ts (if desired = .integer then .integer else .real)
    | _ => .unknownT

/-- `conversionReturnType`, `Operations.cc:454-464`. -/
def conversionReturnType (arg desired : VType) : VType :=
  if desired = .integer then .integer
  else if desired = .real then .real
  else if arg = .unknownT then .real
  else arg

/-- `comparisonType`, `Operations.cc:612-668`. -/
def comparisonType (a b : VType) : VType :=
  let a := if a = .date ∨ a = .duration then .real else a
  let b := if b = .date ∨ b = .duration then .real else b
  if a = b then a
  else if a = .unknownT then (if b = .real ∨ b = .integer ∨ b = .string then b else .unknownT)
  else if a = .integer then (if b = .real ∨ b = .unknownT then .real else .unknownT)
  else if a = .real then (if b = .integer ∨ b = .unknownT then .real else .unknownT)
  else .unknownT

/-- `ArithmeticOperation::getOperator`, `Operations.cc:361-374`, and `ArithmeticConversionOperation`, `:491-502`. -/
def numOperator (mk : NumTy → Op) : VType → Option Op
  | .integer => some (mk .int)
  | .real => some (mk .real)
  | _ => none

/-- `ComparisonOperation::getOperator`, `Operations.cc:697-710`. -/
def cmpOperator (r : Rel) : VType → Option Op
  | .integer => some (.cmp r .int)
  | .real => some (.cmp r .real)
  | .string => some (.cmp r .str)
  | _ => none

/-- `getOperator` for every registered name: `ExpressionMap.gperf:40-112`, `Operations.cc`. -/
def Name.operator (n : Name) (ts : List VType) (desired : VType) : Option Op :=
  let ar := fun o => numOperator (Op.arith o) (arithmeticCommonType ts desired)
  let cv := fun c => numOperator (Op.conv c) (conversionReturnType (ts.headD .unknownT) desired)
  let cp := fun r => cmpOperator r (comparisonType (ts.headD .unknownT) (ts.tail.headD .unknownT))
  match n with
  | .ABS => ar .abs | .ADD => ar .add | .DIV => ar .div | .MAX => ar .max | .MIN => ar .min
  | .MOD => ar .mod | .MUL => ar .mul | .SUB => ar .sub
  | .ALL_KNOWN => some .allKnown | .ANY_KNOWN => some .anyKnown
  | .ArraySize => some .arraySize | .ArrayMaxSize => some .arrayMaxSize
  | .AND => some .and | .OR => some .or | .XOR => some .xor | .NOT => some .not
  | .CEIL => cv .ceil | .FLOOR => cv .floor | .ROUND => cv .round | .TRUNC => cv .trunc
  | .Concat => some .concat | .STRLEN => some .strlen
  | .EQ => some .eq | .NE => some .ne
  | .GE => cp .ge | .GT => cp .gt | .LE => cp .le | .LT => cp .lt
  | .IsKnown => some .isKnown
  | .REAL_TO_INT => some .realToInt | .SQRT => some .sqrt

/-- An expression as written in the plan. `/repo/src/xml-parser/*Factory.cc`. -/
inductive Src
  | leaf (t : VType) (i : Nat)
  | app (n : Name) (args : List Src)

mutual
/-- `OperationFactory::check` and `allocate` together, `OperationFactory.cc:52-121`: count check, type check
on the operands, operator choice; `none` is a `ParserException`.  Operands are created without a desired
type (`createExpression(subexp, node, created)`, `:93`).  Simplification: `check` runs on the types of the
created operands (`Expression::valueType`) instead of the types `checkExpression` predicts. -/
def Src.build : Src → VType → Option Expr
  | .leaf t i, _ => some (.leaf t i)
  | .app n args, desired =>
    match Src.builds args with
    | none => none
    | some es =>
      let ts := es.map Expr.type
      if n.countOK es.length && n.typesOK ts then
        match n.operator ts desired with
        | none => none
        | some op => some (.fn op es)
      else none
/-- The operands, in order. `/repo/src/xml-parser/OperationFactory.cc`. -/
def Src.builds : List Src → Option (List Expr)
  | [] => some []
  | a :: as =>
    match a.build .unknownT, Src.builds as with
    | some e, some es => some (e :: es)
    | _, _ => none
end

end Verif.Expr
