/-
Model of PLEXIL values and arrays.

Modelled code: `/repo/src/value/ValueType.hh`, `Value.hh`, `Value.cc`, `Array.cc`, `ArrayImpl.cc`.
-/
namespace Verif.Value

/-- A byte of a buffer (`char` / `unsigned char`; signedness is dealt with where it matters). `ValueType.cc:505-748`. -/
abbrev Byte := BitVec 8

/-- `PLEXIL::Integer` is `int32_t` (`src/value/ValueType.hh:50-60`): its 32-bit two's complement pattern. -/
abbrev I32 := BitVec 32

/-- `PLEXIL::Real` is `double` (`src/value/ValueType.hh:50-60`): its IEEE-754 binary64 bit pattern. -/
abbrev F64 := BitVec 64

/-- `std::string` as its sequence of bytes. `ValueType.hh:50-60`. -/
abbrev Str := List Byte

/-- `enum ValueType : uint8_t`, `src/value/ValueType.hh:112-147`.
The placeholder enumerators (`SCALAR_TYPE_MAX`, `ARRAY_TYPE`, ...) that are not types are omitted. -/
inductive VType
  | unknownT | boolean | integer | real | string | date | duration
  | booleanArray | integerArray | realArray | stringArray
  | stateT
  | nodeState | outcome | failure | commandHandle
deriving DecidableEq, Repr

/-- The numeric values of the enumerators, `src/value/ValueType.hh:112-147`. -/
def VType.code : VType → Nat
  | .unknownT => 0 | .boolean => 1 | .integer => 2 | .real => 3 | .string => 4
  | .date => 5 | .duration => 6
  | .booleanArray => 17 | .integerArray => 18 | .realArray => 19 | .stringArray => 20
  | .stateT => 32
  | .nodeState => 49 | .outcome => 50 | .failure => 51 | .commandHandle => 52

/-- `ArrayImpl<T>`: the known-bit vector of the base class `Array` (`Array.cc:36-53`) and the
contents vector (`ArrayImpl.cc:40-126`). An unknown element still has a contents slot. -/
structure Arr (α : Type) where
  known : List Bool
  contents : List α
deriving DecidableEq, Repr

/-- The class invariant: both vectors have the same length.  Every constructor and mutator keeps it
(`Arr.WF_*` theorems in `Verif/Props/Value.lean`). `ArrayImpl.cc`, `Array.cc`. -/
def Arr.WF {α} (a : Arr α) : Prop := a.contents.length = a.known.length

/-- `Array::size`, `Array.cc:71-74`. -/
def Arr.size {α} (a : Arr α) : Nat := a.known.length

/-- `ArrayImpl<T>::ArrayImpl(size_t size)`, `ArrayImpl.cc:76-87`: all unknown, default contents. -/
def Arr.ofSize {α} (dflt : α) (n : Nat) : Arr α :=
  { known := List.replicate n false, contents := List.replicate n dflt }

/-- `ArrayImpl<T>::ArrayImpl(std::vector<T> const &)`, `ArrayImpl.cc:102-113`: all known. -/
def Arr.ofList {α} (l : List α) : Arr α :=
  { known := List.replicate l.length true, contents := l }

/-- `std::vector::resize(n, x)`. As in `Array.cc`, `ArrayImpl.cc`. -/
def vresize {α} (l : List α) (n : Nat) (x : α) : List α :=
  l.take n ++ List.replicate (n - l.length) x

/-- `Array::resize` + `ArrayImpl<T>::resize`, `Array.cc:83-86`, `ArrayImpl.cc:216-227`. -/
def Arr.resize {α} (a : Arr α) (dflt : α) (n : Nat) : Arr α :=
  { known := vresize a.known n false, contents := vresize a.contents n dflt }

/-- `Array::setElementUnknown`, `Array.cc:88-93`; out-of-range is a plan error (`none`). Only the
known bit changes: the old contents stay in place. -/
def Arr.setElementUnknown {α} (a : Arr α) (i : Nat) : Option (Arr α) :=
  if i < a.size then some { a with known := a.known.set i false } else none

/-- `ArrayImpl<T>::setElement`, `ArrayImpl.cc:333-348`; out-of-range silently returns. -/
def Arr.setElement {α} (a : Arr α) (i : Nat) (x : α) : Arr α :=
  if i < a.size then { known := a.known.set i true, contents := a.contents.set i x } else a

/-- `ArrayImpl<T>::setElementValue`, `ArrayImpl.cc:350-372`: an unknown `Value` clears the known bit. -/
def Arr.setElementValue {α} (a : Arr α) (i : Nat) (x : Option α) : Arr α :=
  if i < a.size then
    match x with
    | some v => { known := a.known.set i true, contents := a.contents.set i v }
    | none => { a with known := a.known.set i false }
  else a

/-- `Array::reset`, `Array.cc:95-98`. -/
def Arr.reset {α} (a : Arr α) : Arr α :=
  { a with known := List.replicate a.known.length false }

/-- `ArrayImpl<T>::getElement`, `ArrayImpl.cc:255-274`: false (`none`) if out of range or unknown. -/
def Arr.getElement {α} (a : Arr α) (i : Nat) : Option α :=
  if i < a.size then
    if a.known[i]? = some true then a.contents[i]? else none
  else none

/-- What a known `Value` holds: the active member of the union, `Value.hh:280-306`. Enumeration
values are kept as their `uint8_t`. -/
inductive Payload
  | bool (b : Bool)
  | int (i : I32)
  | real (r : F64)
  | str (s : Str)
  | nodeState (x : Byte)
  | outcome (x : Byte)
  | failure (x : Byte)
  | handle (x : Byte)
  | boolArr (a : Arr Bool)
  | intArr (a : Arr I32)
  | realArr (a : Arr F64)
  | strArr (a : Arr Str)
deriving DecidableEq, Repr

/-- The `m_type` that goes with each payload. `Value.cc`. -/
def Payload.type : Payload → VType
  | .bool _ => .boolean | .int _ => .integer | .real _ => .real | .str _ => .string
  | .nodeState _ => .nodeState | .outcome _ => .outcome | .failure _ => .failure
  | .handle _ => .commandHandle
  | .boolArr _ => .booleanArray | .intArr _ => .integerArray
  | .realArr _ => .realArray | .strArr _ => .stringArray

/-- `class Value`: (`m_type`, `m_known`, union), `Value.hh:280-306`. An unknown value keeps a type. -/
inductive Value
  | unknown (t : VType)
  | known (p : Payload)
deriving DecidableEq, Repr

/-- `Value::valueType`, `Value.cc:732-735`. -/
def Value.type : Value → VType
  | .unknown t => t
  | .known p => p.type

/-- `Value::isKnown`, `Value.cc:737-740`. -/
def Value.isKnown : Value → Bool
  | .unknown _ => false
  | .known _ => true

/-! ### Meaning of a `double` -/

/-- The numbers a `double` can denote. A finite double is `k · 2⁻¹⁰⁷⁴` for an integer `k`. `ValueType.hh:50-60`. -/
inductive Dbl
  | nan | ninf | fin (k : Int) | pinf
deriving DecidableEq, Repr

/-- IEEE-754 binary64 decoding (trusted: the meaning of the machine representation). `ValueType.hh:50-60`. -/
def Dbl.ofBits (b : F64) : Dbl :=
  let neg := b.getLsbD 63
  let e : Nat := (b.toNat / 2 ^ 52) % 2048
  let m : Nat := b.toNat % 2 ^ 52
  if e = 2047 then
    if m = 0 then (if neg then .ninf else .pinf) else .nan
  else
    let mag : Int := if e = 0 then Int.ofNat m else Int.ofNat ((2 ^ 52 + m) * 2 ^ (e - 1))
    .fin (if neg then -mag else mag)

/-- The `(Real)` cast of an `int32_t`: exact. `Value.cc:998-1158`. -/
def Dbl.ofI32 (i : I32) : Dbl := .fin (i.toInt * ((2 ^ 1074 : Nat) : Int))

/-- `<` on doubles: false if either side is NaN. `Value.cc:998-1158`. -/
def Dbl.lt : Dbl → Dbl → Bool
  | .nan, _ => false
  | _, .nan => false
  | .ninf, .ninf => false
  | .ninf, _ => true
  | .fin _, .ninf => false
  | .fin a, .fin b => decide (a < b)
  | .fin _, .pinf => true
  | .pinf, _ => false

/-- `==` on doubles: false if either side is NaN; `+0 == -0`. `Value.cc:998-1158`. -/
def Dbl.eq : Dbl → Dbl → Bool
  | .nan, _ => false
  | _, .nan => false
  | .ninf, .ninf => true
  | .pinf, .pinf => true
  | .fin a, .fin b => decide (a = b)
  | _, _ => false

/-- `==` and `<` on two `Real`s. `Value.cc:998-1158`. -/
def f64Lt (a b : F64) : Bool := Dbl.lt (.ofBits a) (.ofBits b)
/-- `==` on two `Real`s, `Value.cc:998-1158`. -/
def f64Eq (a b : F64) : Bool := Dbl.eq (.ofBits a) (.ofBits b)

end Verif.Value
