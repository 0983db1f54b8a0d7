import Verif.Value.Basic
/-
Model of binary serialization: `/repo/src/value/ValueType.cc:505-748`,
`ArrayImpl.cc:553-1034`, `Value.cc:1160-1294`.

`serialize` returns the bytes written at `buf` (`none` = the code returns `nullptr`).
`deserialize` is given the bytes from `buf` to the end of the allocated buffer.
-/
namespace Verif.Value

/-- Result of a deserializer. `ub` = read past the end of the buffer (undefined behaviour);
`thrown` = `std::length_error`/`bad_alloc` out of `vector::resize`; `null` = returns `nullptr`;
`ok v rest` = `v` was stored and the returned pointer is at `rest`. `Value.cc:1193-1294`. -/
inductive Res (α : Type)
  | ub
  | thrown
  | null
  | ok (v : α) (rest : List Byte)
deriving DecidableEq, Repr

/-- A deserializer reading from a buffer. `Value.cc:1193-1294`. -/
def Rd (α : Type) := List Byte → Res α

/-- (Not in the code: a deserializer of `Value.cc:1193-1294` that reads nothing.) -/
@[inline] def Rd.pure {α} (a : α) : Rd α := fun b => .ok a b

/-- (Not in the code: one deserializer of `Value.cc:1193-1294` after another.) -/
@[inline] def Rd.bind {α β} (m : Rd α) (f : α → Rd β) : Rd β := fun b =>
  match m b with
  | .ub => .ub
  | .thrown => .thrown
  | .null => .null
  | .ok a rest => f a rest

instance : Monad Rd where
  pure := Rd.pure
  bind := Rd.bind

/-- `*buf++`. `ValueType.cc:527-703`. -/
def rdByte : Rd Byte
  | [] => .ub
  | b :: rest => .ok b rest

/-- `return nullptr`, `ValueType.cc:527-703`. -/
def rdNull {α} : Rd α := fun _ => .null
/-- An exception out of `vector::resize`, `ArrayImpl.cc:923-980`. -/
def rdThrow {α} : Rd α := fun _ => .thrown
/-- Reading past the end, `ValueType.cc:527-703`. -/
def rdUb {α} : Rd α := fun _ => .ub

/-- Type tag byte. `ValueType.cc:527-703`. -/
def tag (t : VType) : Byte := BitVec.ofNat 8 t.code

/-- `if (T != (ValueType) *buf++) return nullptr;` `ValueType.cc:527-703`. -/
def rdTag (t : VType) : Rd Unit := do
  let b ← rdByte
  if b = tag t then pure () else rdNull

/-! ### Element encodings (`ArrayImpl.cc:577-713`), shared by the scalars (`ValueType.cc:527-703`) -/

/-- `(char) o` of a `bool`, `ValueType.cc:531`, `ArrayImpl.cc:580`. -/
def serBoolElt (b : Bool) : List Byte := [if b then 1 else 0]

/-- `(Boolean) *buf++`: any non-zero byte is true, `ValueType.cc:540`, `ArrayImpl.cc:587`. -/
def desBoolElt : Rd Bool := do
  let b ← rdByte
  pure (b != 0)

/-- Big-endian 32 bits with signed right shifts, `ValueType.cc:587-590`, `ArrayImpl.cc:605-608`. -/
def serI32Elt (o : I32) : List Byte :=
  [ ((o.sshiftRight 24) &&& 0xFF#32).setWidth 8,
    ((o.sshiftRight 16) &&& 0xFF#32).setWidth 8,
    ((o.sshiftRight 8) &&& 0xFF#32).setWidth 8,
    (o &&& 0xFF#32).setWidth 8 ]

/-- `ValueType.cc:599-603`, `ArrayImpl.cc:615-619`: `uint32_t` arithmetic on `unsigned char`s. -/
def desI32Elt : Rd I32 := do
  let b0 ← rdByte
  let r := (b0.setWidth 32 : BitVec 32) <<< 8
  let b1 ← rdByte
  let r := (r + b1.setWidth 32) <<< 8
  let b2 ← rdByte
  let r := (r + b2.setWidth 32) <<< 8
  let b3 ← rdByte
  pure (r + b3.setWidth 32)

/-- Big-endian 64 bits of the bit pattern, `ValueType.cc:621-634`, `ArrayImpl.cc:636-649`. -/
def serF64Elt (l : F64) : List Byte :=
  [ ((l >>> 56) &&& 0xFF#64).setWidth 8,
    ((l >>> 48) &&& 0xFF#64).setWidth 8,
    ((l >>> 40) &&& 0xFF#64).setWidth 8,
    ((l >>> 32) &&& 0xFF#64).setWidth 8,
    ((l >>> 24) &&& 0xFF#64).setWidth 8,
    ((l >>> 16) &&& 0xFF#64).setWidth 8,
    ((l >>> 8) &&& 0xFF#64).setWidth 8,
    (l &&& 0xFF#64).setWidth 8 ]

/-- `ValueType.cc:647-655`, `ArrayImpl.cc:660-668`. -/
def desF64Elt : Rd F64 := do
  let b ← rdByte
  let l := (b.setWidth 64 : BitVec 64) <<< 8
  let b ← rdByte
  let l := (l + b.setWidth 64) <<< 8
  let b ← rdByte
  let l := (l + b.setWidth 64) <<< 8
  let b ← rdByte
  let l := (l + b.setWidth 64) <<< 8
  let b ← rdByte
  let l := (l + b.setWidth 64) <<< 8
  let b ← rdByte
  let l := (l + b.setWidth 64) <<< 8
  let b ← rdByte
  let l := (l + b.setWidth 64) <<< 8
  let b ← rdByte
  pure (l + b.setWidth 64)

/-- Three-byte size field, `ValueType.cc:678-680`, `ArrayImpl.cc:690-692, 848-850`. -/
def serSize (siz : Nat) : List Byte :=
  [ BitVec.ofNat 8 (siz >>> 16), BitVec.ofNat 8 (siz >>> 8), BitVec.ofNat 8 siz ]

/-- Read back through `(unsigned char)`, `ValueType.cc:692-694`, `ArrayImpl.cc:701-703`. -/
def desSizeUnsigned : Rd Nat := do
  let b0 ← rdByte
  let s := b0.toNat <<< 8
  let b1 ← rdByte
  let s := (s + b1.toNat) <<< 8
  let b2 ← rdByte
  pure (s + b2.toNat)

/-- `(size_t) *buf++` where `buf` is `char const *`: sign-extends iff `char` is signed. `ArrayImpl.cc:923-980`. -/
def charToSizeT (charSigned : Bool) (b : Byte) : BitVec 64 :=
  if charSigned then b.signExtend 64 else b.setWidth 64

/-- Array size field, `ArrayImpl.cc:930-932, 951-953, 969-971`: plain `char`, 64-bit `size_t`. -/
def desSizeChar (charSigned : Bool) : Rd (BitVec 64) := do
  let b0 ← rdByte
  let s := (charToSizeT charSigned b0) <<< 8
  let b1 ← rdByte
  let s := (s + charToSizeT charSigned b1) <<< 8
  let b2 ← rdByte
  pure (s + charToSizeT charSigned b2)

/-- `memcpy`/`string::replace` of `n` bytes out of the buffer. `ValueType.cc:670-703`. -/
def rdBytes (n : Nat) : Rd Str := fun b =>
  if n ≤ b.length then .ok (b.take n) (b.drop n) else .ub

/-- `serializeElement<String>`, `ArrayImpl.cc:682-695`. -/
def serStrElt (s : Str) : Option (List Byte) :=
  if s.length > 0xFFFFFF then none else some (serSize s.length ++ s)

/-- `deserializeElement<String>`, `ArrayImpl.cc:697-707`. -/
def desStrElt : Rd Str := do
  let siz ← desSizeUnsigned
  rdBytes siz

/-! ### Bit vectors -/

/-- One byte of `serializeBoolVector`, `ArrayImpl.cc:722-766`: bits from 0x80 downwards; the
fall-through `switch` processes `min siz 8` bits. -/
def packByte (bits : List Bool) : Byte :=
  (bits.foldl (fun (tm : Byte × Byte) b =>
    ((if b then tm.1 ||| tm.2 else tm.1), tm.2 >>> 1)) (0#8, 0x80#8)).1

/-- `serializeBoolVector`, `ArrayImpl.cc:717-771`. -/
def packBits (l : List Bool) : List Byte :=
  if _h : l = [] then [] else packByte (l.take 8) :: packBits (l.drop 8)
termination_by l.length
decreasing_by
  have : 0 < l.length := List.length_pos_iff.mpr _h
  simp; omega

/-- The bits of one byte in `deserializeBoolVector`, `ArrayImpl.cc:781-815`. -/
def unpackByte : Nat → Byte → Byte → List Bool
  | 0, _, _ => []
  | n + 1, tmp, mask => ((tmp &&& mask) != 0) :: unpackByte n tmp (mask >>> 1)

/-- `deserializeBoolVector`, `ArrayImpl.cc:776-819`, for a vector of `siz` bits. -/
def unpackBits (siz : Nat) : Rd (List Bool) :=
  if siz = 0 then pure []
  else do
    let tmp ← rdByte
    let rest ← unpackBits (siz - 8)
    pure (unpackByte (min siz 8) tmp 0x80#8 ++ rest)
termination_by siz

/-- `bitVectorSize`, `ArrayImpl.cc:822-828`. -/
def bitVectorSize (nbits : Nat) : Nat :=
  nbits / 8 + (if nbits % 8 = 0 then 0 else 1)

/-! ### Arrays -/

/-- The element loop of `ArrayImpl<T>::serialize`, `ArrayImpl.cc:856-860`. -/
def serElts {α} (ser : α → Option (List Byte)) : List α → Option (List Byte)
  | [] => some []
  | x :: xs => do
    let b ← ser x
    let r ← serElts ser xs
    pure (b ++ r)

/-- The element loop of `ArrayImpl<T>::deserialize`, `ArrayImpl.cc:937-938, 976-977`. -/
def desElts {α} (des : Rd α) : Nat → Rd (List α)
  | 0 => pure []
  | n + 1 => do
    let x ← des
    let xs ← desElts des n
    pure (x :: xs)

/-- `ArrayImpl<T>::serialize` for numbers and strings, `ArrayImpl.cc:837-862, 888-912`. -/
def serArr {α} (t : VType) (ser : α → Option (List Byte)) (a : Arr α) : Option (List Byte) :=
  if a.size > 0xFFFFFF then none
  else do
    let elts ← serElts ser a.contents
    pure (tag t :: (serSize a.size ++ packBits a.known ++ elts))

/-- `ArrayImpl<Boolean>::serialize`, `ArrayImpl.cc:864-886`. -/
def serBoolArr (a : Arr Bool) : Option (List Byte) :=
  if a.size > 0xFFFFFF then none
  else some (tag .booleanArray :: (serSize a.size ++ packBits a.known ++ packBits a.contents))

/-- A size no `std::vector` accepts: `resize` throws. (`max_size()` is implementation defined and at
most `PTRDIFF_MAX`; the model uses that bound.) `ArrayImpl.cc:923-980`. -/
def vectorMax : Nat := 2 ^ 63

/-- `ArrayImpl<T>::deserialize`, `ArrayImpl.cc:922-941, 962-980`. `this->resize(siz)` keeps old
elements, all of which are overwritten by the loops that follow, so the old array does not matter. -/
def desArr {α} (charSigned : Bool) (t : VType) (des : Rd α) : Rd (Arr α) := do
  rdTag t
  let siz ← desSizeChar charSigned
  if siz.toNat ≥ vectorMax then rdThrow
  else do
    let known ← unpackBits siz.toNat
    let contents ← desElts des siz.toNat
    pure { known := known, contents := contents }

/-- `ArrayImpl<Boolean>::deserialize`, `ArrayImpl.cc:944-960`. -/
def desBoolArr (charSigned : Bool) : Rd (Arr Bool) := do
  rdTag .booleanArray
  let siz ← desSizeChar charSigned
  if siz.toNat ≥ vectorMax then rdThrow
  else do
    let known ← unpackBits siz.toNat
    let contents ← unpackBits siz.toNat
    pure { known := known, contents := contents }

/-! ### Values -/

/-- `Value::serialize`, `Value.cc:1160-1191`, with the scalar serializers of `ValueType.cc:527-703`. -/
def Value.serialize : Value → Option (List Byte)
  | .unknown _ => some [tag .unknownT]
  | .known (.bool b) => some (tag .boolean :: serBoolElt b)
  | .known (.int i) => some (tag .integer :: serI32Elt i)
  | .known (.real r) => some (tag .real :: serF64Elt r)
  | .known (.str s) => (serStrElt s).map (tag .string :: ·)
  | .known (.handle h) => some [tag .commandHandle, h]
  | .known (.boolArr a) => serBoolArr a
  | .known (.intArr a) => serArr .integerArray (fun x => some (serI32Elt x)) a
  | .known (.realArr a) => serArr .realArray (fun x => some (serF64Elt x)) a
  | .known (.strArr a) => serArr .stringArray serStrElt a
  | .known (.nodeState _) => none
  | .known (.outcome _) => none
  | .known (.failure _) => none

/-- Look at `*buf` without consuming it (`Value.cc:1195`). -/
def rdPeek : Rd Byte
  | [] => .ub
  | b :: rest => .ok b (b :: rest)

/-- `Value::deserialize`, `Value.cc:1193-1262`. The previous contents of the `Value` are discarded. -/
def Value.deserialize (charSigned : Bool) : Rd Value := do
  let t ← rdPeek
  if t = tag .unknownT then do let _ ← rdByte; pure (Value.unknown .unknownT)
  else if t = tag .boolean then do rdTag .boolean; let b ← desBoolElt; pure (.known (.bool b))
  else if t = tag .integer then do rdTag .integer; let i ← desI32Elt; pure (.known (.int i))
  else if t = tag .real then do rdTag .real; let r ← desF64Elt; pure (.known (.real r))
  else if t = tag .string then do rdTag .string; let s ← desStrElt; pure (.known (.str s))
  else if t = tag .commandHandle then do
    rdTag .commandHandle; let h ← rdByte; pure (.known (.handle h))
  else if t = tag .booleanArray then do let a ← desBoolArr charSigned; pure (.known (.boolArr a))
  else if t = tag .integerArray then do
    let a ← desArr charSigned .integerArray desI32Elt; pure (.known (.intArr a))
  else if t = tag .realArray then do
    let a ← desArr charSigned .realArray desF64Elt; pure (.known (.realArr a))
  else if t = tag .stringArray then do
    let a ← desArr charSigned .stringArray desStrElt; pure (.known (.strArr a))
  else rdNull

/-- `Value::serialSize`, `Value.cc:1264-1294`, with `ValueType.cc:544-703` and
`ArrayImpl.cc:989-1011`. -/
def Value.serialSize : Value → Nat
  | .unknown _ => 1
  | .known (.bool _) => 2
  | .known (.int _) => 5
  | .known (.real _) => 9
  | .known (.str s) => s.length + 4
  | .known (.handle _) => 2
  | .known (.boolArr a) => 4 + 2 * bitVectorSize a.size
  | .known (.intArr a) => 4 + bitVectorSize a.size + a.size * 4
  | .known (.realArr a) => 4 + bitVectorSize a.size + a.size * 8
  | .known (.strArr a) =>
      4 + bitVectorSize a.size + ((a.contents.map (fun s => 3 + s.length)).sum)
  | .known (.nodeState _) => 0
  | .known (.outcome _) => 0
  | .known (.failure _) => 0

end Verif.Value
