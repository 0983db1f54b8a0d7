import Verif.Value.SerialLemmas
import Verif.Value.EqLemmas
/-
Property theorems about values: C23, C24, C25 (binary serialization), C26 (order and equality),
C28 (arrays).
-/
namespace Verif.Props.Value
open Verif.Value

/-! ## Specification vocabulary -/

/-- What a reader should get back: the value itself; every unknown value comes back as the untyped
unknown (the type of an unknown is not part of the serial form). -/
def afterTransport : Value → Value
  | .unknown _ => .unknown .unknownT
  | v => v

/-- A scalar: not an array. -/
def IsScalar : Value → Prop
  | .known (.boolArr _) | .known (.intArr _) | .known (.realArr _) | .known (.strArr _) => False
  | _ => True

/-- The number of elements of an array value. -/
def arraySize : Value → Option Nat
  | .known (.boolArr a) => some a.known.length
  | .known (.intArr a) => some a.known.length
  | .known (.realArr a) => some a.known.length
  | .known (.strArr a) => some a.known.length
  | _ => none

/-- The class invariant of arrays. -/
def ArraysOk : Value → Prop
  | .known p => p.wf
  | _ => True

/-! ## C23 scalars -/

/-- C23. Every scalar that can be serialized comes back unchanged and the reader stops exactly behind
it, whatever follows in the buffer, for either signedness of `char`. -/
theorem C23_scalar_round_trip (charSigned : Bool) (v : Value) (bs rest : List Byte)
    (hs : IsScalar v) (h : v.serialize = some bs) :
    Value.deserialize charSigned (bs ++ rest) = .ok (afterTransport v) rest := by
  suffices Reads (Value.deserialize charSigned) bs (afterTransport v) from this rest
  match v, hs, h with
  | .unknown _, _, h => cases h; exact fun _ => rfl
  | .known (.bool b), _, h =>
    cases h
    exact reads_peek (Reads.cons (reads_tag .boolean) (Reads.nil (reads_bool b) (Reads.pure _)))
  | .known (.int i), _, h =>
    cases h
    exact reads_peek (Reads.cons (reads_tag .integer) (Reads.nil (reads_i32 i) (Reads.pure _)))
  | .known (.real r), _, h =>
    cases h
    exact reads_peek (Reads.cons (reads_tag .real) (Reads.nil (reads_f64 r) (Reads.pure _)))
  | .known (.str s), _, h =>
    simp only [Value.serialize, Option.map_eq_some_iff] at h
    obtain ⟨b, hb, rfl⟩ := h
    exact reads_peek (Reads.cons (reads_tag .string) (Reads.nil (reads_str hb) (Reads.pure _)))
  | .known (.handle x), _, h =>
    cases h
    exact reads_peek (Reads.cons (reads_tag .commandHandle) (Reads.nil (reads_byte x) (Reads.pure _)))

example : IsScalar (.known (.real 0xBFF0000000000000#64)) ∧
    (Value.known (.real 0xBFF0000000000000#64)).serialize = some [3, 191, 240, 0, 0, 0, 0, 0, 0] :=
  ⟨trivial, by decide⟩
example : (Value.known (.int (-2))).serialize = some [2, 255, 255, 255, 254] := by decide

/-! ## C24 arrays -/

theorem array_round_trip_aux (charSigned : Bool) (v : Value) (n : Nat) (bs : List Byte)
    (hn : arraySize v = some n) (hw : ArraysOk v) (hc : charSigned = false ∨ sizeBytesLow n)
    (h : v.serialize = some bs) : Reads (Value.deserialize charSigned) bs v := by
  match v, hn, hw, h with
  | .known (.boolArr a), hn, hw, h =>
    cases hn
    have hr := reads_boolArr charSigned hw hc h
    obtain ⟨t, rfl⟩ : ∃ t, bs = tag .booleanArray :: t := by
      simp only [Value.serialize, serBoolArr] at h; split at h <;> cases h; exact ⟨_, rfl⟩
    exact reads_peek (Reads.nil hr (Reads.pure _))
  | .known (.intArr a), hn, hw, h =>
    cases hn
    have hr := reads_arr charSigned .integerArray (des := desI32Elt) (fun x _ hx => by cases hx; exact reads_i32 x) hw hc h
    obtain ⟨t, rfl⟩ : ∃ t, bs = tag .integerArray :: t := by
      simp only [Value.serialize, serArr] at h
      split at h
      · cases h
      · simp only [Option.bind_eq_bind, Option.bind_eq_some_iff, Option.pure_def, Option.some.injEq] at h
        obtain ⟨_, _, rfl⟩ := h; exact ⟨_, rfl⟩
    exact reads_peek (Reads.nil hr (Reads.pure _))
  | .known (.realArr a), hn, hw, h =>
    cases hn
    have hr := reads_arr charSigned .realArray (des := desF64Elt) (fun x _ hx => by cases hx; exact reads_f64 x) hw hc h
    obtain ⟨t, rfl⟩ : ∃ t, bs = tag .realArray :: t := by
      simp only [Value.serialize, serArr] at h
      split at h
      · cases h
      · simp only [Option.bind_eq_bind, Option.bind_eq_some_iff, Option.pure_def, Option.some.injEq] at h
        obtain ⟨_, _, rfl⟩ := h; exact ⟨_, rfl⟩
    exact reads_peek (Reads.nil hr (Reads.pure _))
  | .known (.strArr a), hn, hw, h =>
    cases hn
    have hr := reads_arr charSigned .stringArray (des := desStrElt) (fun x _ hx => reads_str hx) hw hc h
    obtain ⟨t, rfl⟩ : ∃ t, bs = tag .stringArray :: t := by
      simp only [Value.serialize, serArr] at h
      split at h
      · cases h
      · simp only [Option.bind_eq_bind, Option.bind_eq_some_iff, Option.pure_def, Option.some.injEq] at h
        obtain ⟨_, _, rfl⟩ := h; exact ⟨_, rfl⟩
    exact reads_peek (Reads.nil hr (Reads.pure _))

/-- C24, full statement, on a platform where `char` is unsigned: every serializable array comes back
element for element (known flags and contents), the reader stopping exactly behind it. -/
theorem C24_array_round_trip_unsigned_char (v : Value) (n : Nat) (bs rest : List Byte)
    (hn : arraySize v = some n) (hw : ArraysOk v) (h : v.serialize = some bs) :
    Value.deserialize false (bs ++ rest) = .ok v rest :=
  array_round_trip_aux false v n bs hn hw (.inl rfl) h rest

/-- C24 where `char` is signed (x86): holds when none of the three bytes of the size is 128 or more.
Missing for the full statement: the other sizes, for which it is false
(`C24_array_round_trip_fails_signed_char`). -/
theorem C24_array_round_trip_signed_char_partial (v : Value) (n : Nat) (bs rest : List Byte)
    (hn : arraySize v = some n) (hlow : n % 256 < 128 ∧ n / 256 % 256 < 128 ∧ n / 65536 < 128)
    (hw : ArraysOk v) (h : v.serialize = some bs) :
    Value.deserialize true (bs ++ rest) = .ok v rest :=
  array_round_trip_aux true v n bs hn hw (.inr hlow) h rest

example : arraySize (.known (.strArr ⟨[true, false], [[65#8], []]⟩)) = some 2 ∧
    ArraysOk (.known (.strArr ⟨[true, false], [[65#8], []]⟩)) ∧
    (Value.known (.strArr ⟨[true, false], [[65#8], []]⟩)).serialize =
      some [20, 0, 0, 2, 128, 0, 0, 1, 65, 0, 0, 0] := by
  refine ⟨rfl, rfl, ?_⟩
  simp [Value.serialize, serArr, serElts, serStrElt, Arr.size, packBits, packByte, serSize, tag, VType.code]

theorem rd_bind_ok {α β} {m : Rd α} {f : α → Rd β} {b : List Byte} {v : β} {r : List Byte}
    (h : (m >>= f) b = .ok v r) : ∃ a b', m b = .ok a b' ∧ f a b' = .ok v r := by
  simp only [bind, Rd.bind] at h
  cases hm : m b with
  | ok a b' => rw [hm] at h; exact ⟨a, b', rfl, h⟩
  | ub => rw [hm] at h; cases h
  | thrown => rw [hm] at h; cases h
  | null => rw [hm] at h; cases h

theorem unpackByte_length (n : Nat) (t m : Byte) : (unpackByte n t m).length = n := by
  induction n generalizing m with
  | zero => rfl
  | succ n ih => simp [unpackByte, ih]

theorem unpackBits_length (n : Nat) : ∀ (b : List Byte) (v : List Bool) (r : List Byte),
    unpackBits n b = .ok v r → v.length = n := by
  induction n using Nat.strongRecOn with
  | ind n ih =>
    intro b v r h
    rw [unpackBits] at h
    split at h
    · cases h; simp_all
    · obtain ⟨t, b1, _, h⟩ := rd_bind_ok h
      obtain ⟨l, b2, hl, h⟩ := rd_bind_ok h
      cases h
      have := ih (n - 8) (by omega) _ _ _ hl
      simp [unpackByte_length, this]; omega

/-- Size read back on a signed-char platform: the stored bytes as signed numbers. -/
theorem sizeChar_signed (n : Nat) (hn : n ≤ 0xFFFFFF) (hbad : ¬ sizeBytesLow n) (rest : List Byte) :
    ∃ s, desSizeChar true (serSize n ++ rest) = .ok s rest ∧ s.toNat ≠ n := by
  have hs : ∀ b : Byte, (charToSizeT true b).toInt = if b.toNat < 128 then (b.toNat : Int) else (b.toNat : Int) - 256 := by
    intro b
    have := b.isLt
    simp only [charToSizeT, if_true]
    rw [BitVec.toInt_signExtend_of_le (by omega), BitVec.toInt_eq_toNat_cond]
    by_cases h : b.toNat < 128
    · rw [if_pos (by omega), if_pos h]
    · rw [if_neg (by omega), if_neg h]; simp
  refine ⟨_, rfl, ?_⟩
  intro heq
  have h0 := hs (BitVec.ofNat 8 (n >>> 16))
  have h1 := hs (BitVec.ofNat 8 (n >>> 8))
  have h2 := hs (BitVec.ofNat 8 n)
  revert h0 h1 h2 heq
  generalize charToSizeT true (BitVec.ofNat 8 (n >>> 16)) = c0
  generalize charToSizeT true (BitVec.ofNat 8 (n >>> 8)) = c1
  generalize charToSizeT true (BitVec.ofNat 8 n) = c2
  intro heq h0 h1 h2
  simp only [BitVec.toNat_ofNat, Nat.shiftRight_eq_div_pow] at h0 h1 h2
  simp only [BitVec.toNat_add, BitVec.toNat_shiftLeft, Nat.shiftLeft_eq] at heq
  rw [BitVec.toInt_eq_toNat_cond] at h0 h1 h2
  have l0 := c0.isLt
  have l1 := c1.isLt
  have l2 := c2.isLt
  unfold sizeBytesLow at hbad
  split at h0 <;> split at h1 <;> split at h2 <;> split at h0 <;> split at h1 <;> split at h2 <;> omega

/-- C24 is false where `char` is signed: *every* array whose size has a byte of 128 or more fails to come
back as itself. -/
theorem C24_array_round_trip_fails_signed_char (v : Value) (n : Nat) (bs rest : List Byte)
    (hn : arraySize v = some n)
    (hhigh : ¬ (n % 256 < 128 ∧ n / 256 % 256 < 128 ∧ n / 65536 < 128))
    (h : v.serialize = some bs) :
    ∀ rest', Value.deserialize true (bs ++ rest) ≠ .ok v rest' := by
  -- shape of the bytes
  have shape : ∀ {α} (t : VType) (ser : α → Option (List Byte)) (a : Arr α) bs, serArr t ser a = some bs →
      a.size ≤ 0xFFFFFF ∧ ∃ tl, bs = tag t :: (serSize a.size ++ tl) := by
    intro α t ser a bs h
    unfold serArr at h
    split at h
    · cases h
    · simp only [Option.bind_eq_bind, Option.bind_eq_some_iff, Option.pure_def, Option.some.injEq] at h
      obtain ⟨e, _, rfl⟩ := h
      exact ⟨by omega, packBits a.known ++ e, by simp [List.append_assoc]⟩
  have fail : ∀ {α} (t : VType) (des : Rd α) (a : Arr α) (m : Nat) tl r', m ≤ 0xFFFFFF → ¬ sizeBytesLow m → a.size = m →
      desArr true t des (tag t :: (serSize m ++ tl)) ≠ .ok a r' := by
    intro α t des a m tl r' hm hb ha hd
    unfold desArr at hd
    obtain ⟨_, b1, h1, hd⟩ := rd_bind_ok hd
    have : b1 = serSize m ++ tl := by
      have := reads_tag t (serSize m ++ tl)
      simp only [List.cons_append, List.nil_append] at this
      rw [this] at h1; cases h1; rfl
    subst this
    obtain ⟨s, b2, h2, hd⟩ := rd_bind_ok hd
    obtain ⟨s', hs', hne⟩ := sizeChar_signed m hm hb tl
    rw [hs'] at h2; cases h2
    split at hd
    · cases hd
    · obtain ⟨k, b3, h3, hd⟩ := rd_bind_ok hd
      obtain ⟨c, b4, h4, hd⟩ := rd_bind_ok hd
      cases hd
      have := unpackBits_length _ _ _ _ h3
      simp only [Arr.size] at ha
      omega
  have wrap : ∀ {α} (t : VType) (des : Rd α) (f : Arr α → Payload) (x : Value) (tl r' : List Byte) ,
      ((do let a ← desArr true t des; pure (Value.known (f a)) : Rd Value) (tag t :: tl) = .ok x r') →
      ∃ a r'', desArr true t des (tag t :: tl) = .ok a r'' ∧ x = .known (f a) := by
    intro α t des f x tl r' hh
    obtain ⟨a, b', h1, h2⟩ := rd_bind_ok hh
    cases h2
    exact ⟨a, _, h1, rfl⟩
  intro rest' hd
  match v, hn, h with
  | .known (.intArr a), hn, h =>
    cases hn
    obtain ⟨hle, tl, rfl⟩ := shape _ _ _ _ h
    rw [List.cons_append, List.append_assoc] at hd
    obtain ⟨a', r'', hda, he⟩ := wrap VType.integerArray desI32Elt .intArr _ _ _ hd
    cases he
    exact fail _ _ _ _ _ _ hle hhigh rfl hda
  | .known (.realArr a), hn, h =>
    cases hn
    obtain ⟨hle, tl, rfl⟩ := shape _ _ _ _ h
    rw [List.cons_append, List.append_assoc] at hd
    obtain ⟨a', r'', hda, he⟩ := wrap VType.realArray desF64Elt .realArr _ _ _ hd
    cases he
    exact fail _ _ _ _ _ _ hle hhigh rfl hda
  | .known (.strArr a), hn, h =>
    cases hn
    obtain ⟨hle, tl, rfl⟩ := shape _ _ _ _ h
    rw [List.cons_append, List.append_assoc] at hd
    obtain ⟨a', r'', hda, he⟩ := wrap VType.stringArray desStrElt .strArr _ _ _ hd
    cases he
    exact fail _ _ _ _ _ _ hle hhigh rfl hda
  | .known (.boolArr a), hn, h =>
    cases hn
    simp only [Value.serialize, serBoolArr] at h
    split at h
    · cases h
    · cases h
      rw [List.cons_append, List.append_assoc, List.append_assoc] at hd
      have hd' : (do let a ← desBoolArr true; pure (Value.known (.boolArr a)) : Rd Value)
        (tag .booleanArray :: (serSize a.size ++ (packBits a.known ++ (packBits a.contents ++ rest)))) = .ok (.known (.boolArr a)) rest' := hd
      obtain ⟨a', b', h1, h2⟩ := rd_bind_ok hd'
      cases h2
      unfold desBoolArr at h1
      obtain ⟨_, b1, h1', h1⟩ := rd_bind_ok h1
      have hb1 := reads_tag .booleanArray (serSize a.size ++ (packBits a.known ++ (packBits a.contents ++ rest)))
      simp only [List.cons_append, List.nil_append] at hb1
      rw [hb1] at h1'; cases h1'
      obtain ⟨s, b2, h2, h1⟩ := rd_bind_ok h1
      obtain ⟨s', hs', hne⟩ := sizeChar_signed a.size (by omega) hhigh (packBits a.known ++ (packBits a.contents ++ rest))
      rw [hs'] at h2; cases h2
      split at h1
      · cases h1
      · obtain ⟨k, b3, h3, h1⟩ := rd_bind_ok h1
        obtain ⟨c, b4, h4, h1⟩ := rd_bind_ok h1
        cases h1
        have := unpackBits_length _ _ _ _ h3
        simp only [Arr.size] at hne
        omega

example : arraySize (.known (.boolArr (Arr.ofSize false 128))) = some 128 ∧
    ¬ (128 % 256 < 128 ∧ 128 / 256 % 256 < 128 ∧ 128 / 65536 < 128) ∧
    (Value.known (.boolArr (Arr.ofSize false 128))).serialize ≠ none := by
  refine ⟨by simp [arraySize, Arr.ofSize], by decide, ?_⟩
  simp [Value.serialize, serBoolArr, Arr.size, Arr.ofSize]

/-- Read `k` values one after the other. -/
def readMany (charSigned : Bool) : Nat → Rd (List Value)
  | 0 => pure []
  | k + 1 => do
    let v ← Value.deserialize charSigned
    let vs ← readMany charSigned k
    pure (v :: vs)

/-- C23 + C24. Values written back to back are read back in order, each boundary found exactly: a whole
message round-trips. -/
theorem C23_message_round_trip (charSigned : Bool) (vs : List Value) (bss : List (List Byte)) (rest : List Byte)
    (hser : vs.map Value.serialize = bss.map some) (hw : ∀ v ∈ vs, ArraysOk v)
    (hc : charSigned = false ∨ ∀ v ∈ vs, ∀ n, arraySize v = some n →
      n % 256 < 128 ∧ n / 256 % 256 < 128 ∧ n / 65536 < 128) :
    readMany charSigned vs.length (bss.flatten ++ rest) = .ok (vs.map afterTransport) rest := by
  suffices Reads (readMany charSigned vs.length) bss.flatten (vs.map afterTransport) from this rest
  induction vs generalizing bss with
  | nil =>
    cases bss with
    | nil => exact Reads.pure _
    | cons => simp at hser
  | cons v vs ih =>
    cases bss with
    | nil => simp at hser
    | cons bs bss =>
      simp only [List.map_cons, List.cons.injEq] at hser
      have h1 : Reads (Value.deserialize charSigned) bs (afterTransport v) := by
        cases hn : arraySize v with
        | none =>
          refine fun rest => C23_scalar_round_trip charSigned v bs rest ?_ hser.1
          revert hn
          unfold arraySize IsScalar
          split <;> simp
        | some n =>
          have : afterTransport v = v := by
            revert hn; unfold arraySize afterTransport; split <;> simp
          rw [this]
          refine array_round_trip_aux charSigned v n bs hn (hw v (by simp)) ?_ hser.1
          rcases hc with hc | hc
          · exact .inl hc
          · exact .inr (hc v (by simp) n hn)
      refine Reads.bind h1 (Reads.nil (ih bss hser.2 (fun v hv => hw v (by simp [hv])) ?_) (Reads.pure _))
      rcases hc with hc | hc
      · exact .inl hc
      · exact .inr (fun v hv => hc v (by simp [hv]))

/-! ## C25 size and refusal -/

/-- C25 (first half). The number of bytes written is exactly what `serialSize` announced, so a buffer of
that size is neither overrun nor short. -/
theorem C25_serialSize_exact (v : Value) (bs : List Byte) (hw : ArraysOk v) (h : v.serialize = some bs) :
    bs.length = v.serialSize := by
  have elts : ∀ {α} (ser : α → Option (List Byte)) (w : α → Nat),
      (∀ x bs, ser x = some bs → bs.length = w x) → ∀ (l : List α) bs, serElts ser l = some bs →
      bs.length = (l.map w).sum := by
    intro α ser w hw l
    induction l with
    | nil => intro bs h; cases h; rfl
    | cons x xs ih =>
      intro bs h
      simp only [serElts, Option.bind_eq_bind, Option.bind_eq_some_iff, Option.pure_def, Option.some.injEq] at h
      obtain ⟨b, hb, r, hr, rfl⟩ := h
      simp [hw x b hb, ih r hr]
  have arr : ∀ {α} (t : VType) (ser : α → Option (List Byte)) (w : α → Nat),
      (∀ x bs, ser x = some bs → bs.length = w x) → ∀ (a : Arr α) bs, serArr t ser a = some bs →
      bs.length = 4 + bitVectorSize a.size + (a.contents.map w).sum := by
    intro α t ser w hw a bs h
    unfold serArr at h
    split at h
    · cases h
    · simp only [Option.bind_eq_bind, Option.bind_eq_some_iff, Option.pure_def, Option.some.injEq] at h
      obtain ⟨e, he, rfl⟩ := h
      simp [serSize, length_packBits, elts ser w hw _ _ he, Arr.size]; omega
  have hstr : ∀ s bs, serStrElt s = some bs → bs.length = 3 + s.length := by
    intro s bs h
    unfold serStrElt at h
    split at h <;> cases h
    simp [serSize]; omega
  have sumc : ∀ {α} (l : List α) (c : Nat), (l.map (fun _ => c)).sum = l.length * c := by
    intro α l c
    induction l with
    | nil => simp
    | cons x xs ih => simp [ih, Nat.succ_mul]; omega
  match v, hw, h with
  | .unknown _, _, h => cases h; rfl
  | .known (.bool _), _, h => cases h; rfl
  | .known (.int _), _, h => cases h; rfl
  | .known (.real _), _, h => cases h; rfl
  | .known (.handle _), _, h => cases h; rfl
  | .known (.str s), _, h =>
    simp only [Value.serialize, Option.map_eq_some_iff] at h
    obtain ⟨b, hb, rfl⟩ := h
    simp [hstr s b hb, Value.serialSize]; omega
  | .known (.boolArr a), hw, h =>
    simp only [Value.serialize, serBoolArr] at h
    split at h <;> cases h
    have hw : a.contents.length = a.known.length := hw
    simp [serSize, length_packBits, hw, Value.serialSize, Arr.size]; omega
  | .known (.intArr a), hw, h =>
    have := arr _ _ (fun _ => 4) (fun x bs h => by cases h; rfl) a bs h
    have hw : a.contents.length = a.known.length := hw
    rw [this, sumc]; simp [Value.serialSize, Arr.size, hw]
  | .known (.realArr a), hw, h =>
    have := arr _ _ (fun _ => 8) (fun x bs h => by cases h; rfl) a bs h
    have hw : a.contents.length = a.known.length := hw
    rw [this, sumc]; simp [Value.serialSize, Arr.size, hw]
  | .known (.strArr a), hw, h => exact arr _ _ _ hstr a bs h

/-- The strings a value contains (of all array slots, known or not). -/
def stringsIn : Value → List Str
  | .known (.str s) => [s]
  | .known (.strArr a) => a.contents
  | _ => []

/-- The value is a plan-internal enumeration, for which no serial form is implemented. -/
def IsInternalEnum : Value → Prop
  | .known (.nodeState _) | .known (.outcome _) | .known (.failure _) => True
  | _ => False

/-- C25 (second half). Serialization is refused exactly when a string or array is longer than the 24-bit
size field can express, or the value is a node state / outcome / failure type. -/
theorem C25_refused_iff (v : Value) :
    v.serialize = none ↔
      (∃ s ∈ stringsIn v, 16777216 ≤ s.length) ∨ (∃ n, arraySize v = some n ∧ 16777216 ≤ n)
      ∨ IsInternalEnum v := by
  have hstr : ∀ s, serStrElt s = none ↔ 16777216 ≤ s.length := by
    intro s; unfold serStrElt; split <;> simp <;> omega
  have elts : ∀ {α} (ser : α → Option (List Byte)) (l : List α), serElts ser l = none ↔ ∃ x ∈ l, ser x = none := by
    intro α ser l
    induction l with
    | nil => simp [serElts]
    | cons x xs ih =>
      simp only [serElts, Option.bind_eq_bind, List.mem_cons, exists_eq_or_imp, ← ih]
      cases ser x <;> simp
      cases serElts ser xs <;> simp
  have arr : ∀ {α} (t : VType) (ser : α → Option (List Byte)) (a : Arr α), serArr t ser a = none ↔
      16777216 ≤ a.known.length ∨ ∃ x ∈ a.contents, ser x = none := by
    intro α t ser a
    rw [← elts]
    unfold serArr Arr.size
    split
    · simp; omega
    · cases serElts ser a.contents <;> simp; omega
  match v with
  | .unknown _ => simp [Value.serialize, stringsIn, arraySize, IsInternalEnum]
  | .known (.bool _) => simp [Value.serialize, stringsIn, arraySize, IsInternalEnum]
  | .known (.int _) => simp [Value.serialize, stringsIn, arraySize, IsInternalEnum]
  | .known (.real _) => simp [Value.serialize, stringsIn, arraySize, IsInternalEnum]
  | .known (.handle _) => simp [Value.serialize, stringsIn, arraySize, IsInternalEnum]
  | .known (.nodeState _) => simp [Value.serialize, IsInternalEnum]
  | .known (.outcome _) => simp [Value.serialize, IsInternalEnum]
  | .known (.failure _) => simp [Value.serialize, IsInternalEnum]
  | .known (.str s) => simp [Value.serialize, stringsIn, arraySize, IsInternalEnum, hstr]
  | .known (.boolArr a) =>
    simp [Value.serialize, stringsIn, arraySize, IsInternalEnum, serBoolArr, Arr.size]; omega
  | .known (.intArr a) => simp [Value.serialize, stringsIn, arraySize, IsInternalEnum, arr]
  | .known (.realArr a) => simp [Value.serialize, stringsIn, arraySize, IsInternalEnum, arr]
  | .known (.strArr a) =>
    simp [Value.serialize, stringsIn, arraySize, IsInternalEnum, arr, hstr]; exact Or.comm

example : ArraysOk (.known (.intArr (Arr.ofList [7#32, 8#32]))) ∧
    (Value.known (.intArr (Arr.ofList [7#32, 8#32]))).serialSize = 13 := ⟨rfl, rfl⟩

/-! ## C26 order and equality -/

/-- C26. `<` on values without NaN is a strict weak order: irreflexive, transitive, and
"neither is less" is transitive. Values of different types and unknown values are included. -/
theorem C26_strict_weak_order :
    (∀ a : Value, a.Ordinary → a.lessThan a = false) ∧
    (∀ a b c : Value, a.Ordinary → b.Ordinary → c.Ordinary →
      a.lessThan b = true → b.lessThan c = true → a.lessThan c = true) ∧
    (∀ a b c : Value, a.Ordinary → b.Ordinary → c.Ordinary →
      a.lessThan b = false → b.lessThan a = false → b.lessThan c = false → c.lessThan b = false →
      a.lessThan c = false ∧ c.lessThan a = false) := by
  refine ⟨?_, ?_, ?_⟩
  · intro a ha; rw [lessThan_eq_ilex a a ha ha]; exact ilex_irrefl _
  · intro a b c ha hb hc
    rw [lessThan_eq_ilex a b ha hb, lessThan_eq_ilex b c hb hc, lessThan_eq_ilex a c ha hc]
    exact ilex_trans _ _ _
  · intro a b c ha hb hc
    rw [lessThan_eq_ilex a b ha hb, lessThan_eq_ilex b c hb hc, lessThan_eq_ilex a c ha hc,
      lessThan_eq_ilex b a hb ha, lessThan_eq_ilex c b hc hb, lessThan_eq_ilex c a hc ha]
    intro h1 h2 h3 h4
    have e1 := ilex_total _ _ h1 h2
    have e2 := ilex_total _ _ h3 h4
    rw [e1, e2]
    exact ⟨ilex_irrefl _, ilex_irrefl _⟩

/-- C26. `==` on values without NaN is an equivalence relation. (Symmetry needs no hypothesis.) -/
theorem C26_equals_equivalence :
    (∀ a : Value, a.Ordinary → a.equals a = true) ∧
    (∀ a b : Value, a.Ordinary → b.Ordinary → a.equals b = b.equals a) ∧
    (∀ a b c : Value, a.Ordinary → b.Ordinary → c.Ordinary →
      a.equals b = true → b.equals c = true → a.equals c = true) := by
  have unk : ∀ s t, Value.equals (.unknown s) (.unknown t) = true ↔
      (s = t ∨ (s = .integer ∧ t = .real) ∨ (s = .real ∧ t = .integer)) := by
    intro s t; cases s <;> cases t <;> simp [Value.equals]
  refine ⟨?_, ?_, ?_⟩
  · intro a ha
    cases a with
    | unknown t => simp [unk]
    | known p => simp [equals_known_iff p p ha.1]
  · intro a b ha hb
    rw [Bool.eq_iff_iff]
    cases a <;> cases b
    · rename_i s t; rw [unk, unk]; cases s <;> cases t <;> simp
    · simp [Value.equals]
    · simp [Value.equals]
    · rw [equals_known_iff _ _ ha.1, equals_known_iff _ _ hb.1]; exact eq_comm
  · intro a b c ha hb hc
    cases a <;> cases b <;> cases c
    · rename_i r s t; rw [unk, unk, unk]; cases r <;> cases s <;> cases t <;> simp
    all_goals try (simp [Value.equals]; done)
    rw [equals_known_iff _ _ ha.1, equals_known_iff _ _ hb.1, equals_known_iff _ _ ha.1]
    exact Eq.trans

/-- The one exception found below: an unknown Integer and an unknown Real. -/
def MixedUnknown (a b : Value) : Prop :=
  (a = .unknown .integer ∧ b = .unknown .real) ∨ (a = .unknown .real ∧ b = .unknown .integer)

/-- C26, consistency, one direction: equal values are not ordered. Full claim: for all values.
Missing: the pair unknown Integer / unknown Real, for which it is false
(`C26_unknown_int_real_inconsistent`), and NaN. -/
theorem C26_equal_not_less_partial (a b : Value) (ha : a.Ordinary) (hb : b.Ordinary)
    (hm : ¬ MixedUnknown a b) (h : a.equals b = true) :
    a.lessThan b = false ∧ b.lessThan a = false := by
  have : a.key = b.key := by
    cases a <;> cases b
    · rename_i s t
      revert h hm
      cases s <;> cases t <;> simp [Value.equals, MixedUnknown]
    · simp [Value.equals] at h
    · simp [Value.equals] at h
    · rw [equals_known_iff _ _ ha.1] at h
      simp only [Value.key]
      rw [key_of_ekey h]
  rw [lessThan_eq_ilex a b ha hb, lessThan_eq_ilex b a hb ha, this]
  exact ⟨ilex_irrefl _, ilex_irrefl _⟩

/-- Every unknown slot of an array still holds the default element, as in a fresh array. -/
def Canonical : Value → Prop
  | .known (.boolArr a) => canonList false a.known a.contents
  | .known (.intArr a) => canonList 0#32 a.known a.contents
  | .known (.realArr a) => canonList 0#64 a.known a.contents
  | .known (.strArr a) => canonList [] a.known a.contents
  | _ => True

/-- C26, consistency, other direction: values neither of which is less are equal. Full claim: for all
values. Missing: arrays with leftover contents in unknown slots, for which it is false
(`C26_stale_contents_inconsistent`), and NaN. -/
theorem C26_incomparable_equal_partial (a b : Value) (ha : a.Ordinary) (hb : b.Ordinary)
    (ca : Canonical a) (cb : Canonical b)
    (h1 : a.lessThan b = false) (h2 : b.lessThan a = false) : a.equals b = true := by
  have dec : ∀ {α} [DecidableEq α] (x y : α), x = y → (decide (x = y)) = true := by
    intro α _ x y h; simp [h]
  cases a <;> cases b
  · rename_i s t
    revert h1 h2
    cases s <;> cases t <;> simp [Value.lessThan, Value.equals, VType.code]
  · simp [Value.lessThan] at h1
  · simp [Value.lessThan] at h2
  rename_i p q
  cases p <;> cases q
  all_goals first
    | (simp [Value.lessThan, Payload.type, VType.code] at h1; done)
    | (simp [Value.lessThan, Payload.type, VType.code] at h2; done)
    | skip
  · rename_i x y; revert h1 h2; cases x <;> cases y <;> decide
  · exact dec _ _ (i32_incomparable _ _ h1 h2)
  · exact (Dbl.eq_symm _ _).trans (dbl_incomparable _ _ (ofI32_ne_nan _) hb.1 h1 h2)
  · exact dbl_incomparable _ _ ha.1 (ofI32_ne_nan _) h1 h2
  · exact dbl_incomparable _ _ ha.1 hb.1 h1 h2
  · exact dec _ _ (strLt_incomparable _ _ h1 h2)
  all_goals first
    | (apply dec; apply BitVec.eq_of_toNat_eq; simp [Value.lessThan] at h1 h2; omega)
    | skip
  · exact arr_incomparable (P := fun _ => True) (dflt := false) rfl
      (fun x y _ _ => by cases x <;> cases y <;> decide) _ _ ha.2 hb.2
      (fun _ _ => trivial) (fun _ _ => trivial) ca cb h1 h2
  · exact arr_incomparable (P := fun _ => True) (dflt := 0#32) rfl
      (fun x y _ _ u v => dec _ _ (i32_incomparable x y u v)) _ _ ha.2 hb.2
      (fun _ _ => trivial) (fun _ _ => trivial) ca cb h1 h2
  · exact arr_incomparable (P := fun r => Dbl.ofBits r ≠ .nan) (dflt := 0#64) (by decide)
      (fun x y hx hy u v => dbl_incomparable _ _ hx hy u v) _ _ ha.2 hb.2
      ha.1 hb.1 ca cb h1 h2
  · exact arr_incomparable (P := fun _ => True) (dflt := []) rfl
      (fun x y _ _ u v => dec _ _ (strLt_incomparable x y u v)) _ _ ha.2 hb.2
      (fun _ _ => trivial) (fun _ _ => trivial) ca cb h1 h2

/-- C26 is false without restriction: an unknown Integer equals an unknown Real and yet is less. -/
theorem C26_unknown_int_real_inconsistent :
    (Value.unknown .integer).equals (.unknown .real) = true ∧
    (Value.unknown .integer).lessThan (.unknown .real) = true := by decide

/-- An Integer array whose only element was assigned 5 and then made unknown, and a fresh one. -/
def staleArr : Option (Arr I32) := ((Arr.ofSize 0#32 1).setElement 0 5#32).setElementUnknown 0

/-- C26 is false without restriction: an array whose element was assigned and then cleared is neither less
than nor greater than a fresh array, every element reads the same (unknown), and yet they are unequal. -/
theorem C26_stale_contents_inconsistent :
    ∃ a, staleArr = some a ∧
    (∀ i, a.getElement i = (Arr.ofSize 0#32 1).getElement i) ∧
    (Value.known (.intArr a)).lessThan (.known (.intArr (Arr.ofSize 0#32 1))) = false ∧
    (Value.known (.intArr (Arr.ofSize 0#32 1))).lessThan (.known (.intArr a)) = false ∧
    (Value.known (.intArr a)).equals (.known (.intArr (Arr.ofSize 0#32 1))) = false := by
  refine ⟨⟨[false], [5#32]⟩, by decide, ?_, by decide, by decide, by decide⟩
  intro i
  cases i <;> simp [Arr.getElement, Arr.size, Arr.ofSize]

/-- C26 is false without restriction: NaN is not equal to itself and is incomparable with both 1 and 2
although 1 < 2. -/
theorem C26_nan_inconsistent :
    (Value.known (.real 0x7FF8000000000000#64)).equals (.known (.real 0x7FF8000000000000#64)) = false ∧
    (Value.known (.int 1)).lessThan (.known (.real 0x7FF8000000000000#64)) = false ∧
    (Value.known (.real 0x7FF8000000000000#64)).lessThan (.known (.int 1)) = false ∧
    (Value.known (.int 2)).lessThan (.known (.real 0x7FF8000000000000#64)) = false ∧
    (Value.known (.real 0x7FF8000000000000#64)).lessThan (.known (.int 2)) = false ∧
    (Value.known (.int 1)).lessThan (.known (.int 2)) = true := by decide

example : (Value.known (.int 1)).Ordinary ∧ (Value.known (.str [65#8])).Ordinary ∧
    (Value.known (.int 1)).lessThan (.known (.str [65#8])) = true := ⟨⟨trivial, trivial⟩, ⟨trivial, trivial⟩, by decide⟩

/-! ## C28 arrays as partial maps -/

/-- Reading an array gives the element last written there; other elements are untouched; out-of-range
writes change nothing. -/
theorem C28_set_get {α} (a : Arr α) (hw : a.WF) (i j : Nat) (x : α) :
    (a.setElement i x).getElement j =
      if j = i ∧ i < a.size then some x else a.getElement j := by
  unfold Arr.WF at hw
  unfold Arr.setElement Arr.getElement Arr.size
  by_cases hi : i < a.known.length
  · by_cases hj : j = i
    · subst hj; simp [hi, hw]
    · simp only [hi, if_true, List.length_set, hj, false_and, if_false]
      rw [List.getElem?_set_ne (by omega), List.getElem?_set_ne (by omega)]
  · simp [hi]

/-- Making an element unknown hides exactly that element. -/
theorem C28_unknown_get {α} (a a' : Arr α) (i j : Nat) (h : a.setElementUnknown i = some a') :
    a'.getElement j = if j = i then none else a.getElement j := by
  unfold Arr.setElementUnknown at h
  split at h
  · rename_i hi
    cases h
    unfold Arr.getElement Arr.size
    unfold Arr.size at hi
    by_cases hj : j = i
    · subst hj; simp [hi]
    · simp only [List.length_set, hj, if_false]
      rw [List.getElem?_set_ne (by omega)]
  · cases h

/-- Resizing keeps the elements below the new size; new elements are unknown. -/
theorem C28_resize_get {α} (a : Arr α) (hw : a.WF) (d : α) (n j : Nat) :
    (a.resize d n).getElement j = (if j < n then a.getElement j else none) ∧ (a.resize d n).size = n := by
  unfold Arr.WF at hw
  have hs : (a.resize d n).size = n := by
    simp [Arr.resize, Arr.size, vresize]; omega
  refine ⟨?_, hs⟩
  unfold Arr.getElement
  rw [hs]
  by_cases hj : j < n
  · by_cases hl : j < a.known.length
    · have hk : (a.resize d n).known[j]? = a.known[j]? := by
        show (_ ++ _)[j]? = _
        rw [List.getElem?_append_left (by simp; omega)]
        simp [hj]
      have hc : (a.resize d n).contents[j]? = a.contents[j]? := by
        show (_ ++ _)[j]? = _
        rw [List.getElem?_append_left (by simp; omega)]
        simp [hj]
      simp only [hk, hc, hj, if_true, Arr.size, hl]
    · have hk : (a.resize d n).known[j]? = some false := by
        show (_ ++ _)[j]? = _
        rw [List.getElem?_append_right (by simp; omega), List.getElem?_replicate, if_pos (by simp; omega)]
      simp [hk, hl, Arr.size]
  · simp [hj]

/-- A fresh array is all unknown; a reset array is all unknown; an array built from a vector has exactly
that vector's elements. -/
theorem C28_fresh_reset_list {α} (d : α) (n : Nat) (a : Arr α) (l : List α) (j : Nat) :
    (Arr.ofSize d n).getElement j = none ∧ a.reset.getElement j = none ∧ (Arr.ofList l).getElement j = l[j]? := by
  refine ⟨?_, ?_, ?_⟩
  · simp only [Arr.getElement, Arr.ofSize, Arr.size, List.length_replicate, List.getElem?_replicate]
    split <;> simp_all
  · simp only [Arr.getElement, Arr.reset, Arr.size, List.length_replicate, List.getElem?_replicate]
    split <;> simp_all
  · simp only [Arr.getElement, Arr.ofList, Arr.size, List.length_replicate, List.getElem?_replicate]
    split
    · simp_all
    · rw [List.getElem?_eq_none (by omega)]

/-- Every constructor and mutator keeps the class invariant. -/
theorem C28_invariant {α} (d : α) (n : Nat) (l : List α) (a : Arr α) (hw : a.WF) (i : Nat) (x : α) (ox : Option α) :
    (Arr.ofSize d n).WF ∧ (Arr.ofList l).WF ∧ (a.resize d n).WF ∧ (a.setElement i x).WF ∧
    (a.setElementValue i ox).WF ∧ a.reset.WF ∧ (∀ a', a.setElementUnknown i = some a' → a'.WF) := by
  unfold Arr.WF at *
  refine ⟨by simp [Arr.ofSize], by simp [Arr.ofList], by simp [Arr.resize, vresize, hw], ?_, ?_,
    by simp [Arr.reset, hw], ?_⟩
  · unfold Arr.setElement; split <;> simp [hw]
  · unfold Arr.setElementValue
    split
    · cases ox <;> simp [hw]
    · exact hw
  · intro a' h
    unfold Arr.setElementUnknown at h
    split at h <;> cases h
    simp [hw]

example : (Arr.ofList [1#32, 2#32]).WF ∧
    ((Arr.ofList [1#32, 2#32]).setElement 1 9#32).getElement 1 = some 9#32 := ⟨rfl, by decide⟩

/-- Storing an element as a `Value` stores it, an unknown one included: the element then reads as
unknown; every other element, and an array too short, stay as they were. -/
theorem C28_setValue_get {α} (a : Arr α) (hw : a.WF) (i j : Nat) (x : Option α) :
    (a.setElementValue i x).getElement j =
      if j = i ∧ i < a.size then x else a.getElement j := by
  cases x with
  | some v => exact C28_set_get a hw i j v
  | none =>
    unfold Arr.WF at hw
    unfold Arr.setElementValue Arr.getElement Arr.size
    by_cases hi : i < a.known.length
    · by_cases hj : j = i
      · subst hj; simp [hi]
      · simp only [hi, if_true, List.length_set, hj, false_and, if_false]
        rw [List.getElem?_set_ne (by omega)]
    · simp [hi]

example : (Arr.ofList [1#32, 2#32]).WF ∧
    ((Arr.ofList [1#32, 2#32]).setElementValue 1 none).getElement 1 = none ∧
    ((Arr.ofList [1#32, 2#32]).setElementValue 1 none).getElement 0 = some 1#32 := ⟨rfl, by decide, by decide⟩

end Verif.Props.Value
