import Verif.Value.Serial
/- Helper lemmas for the serialization round-trip theorems. -/
namespace Verif.Value

/-- The reader `m` consumes exactly the bytes `bs`, whatever follows, and yields `v`. -/
def Reads {α} (m : Rd α) (bs : List Byte) (v : α) : Prop :=
  ∀ rest, m (bs ++ rest) = .ok v rest

theorem Reads.pure {α} (v : α) : Reads (Pure.pure v : Rd α) [] v := fun _ => rfl

theorem Reads.bind {α β} {m : Rd α} {f : α → Rd β} {b1 b2 : List Byte} {a : α} {v : β}
    (h1 : Reads m b1 a) (h2 : Reads (f a) b2 v) : Reads (m >>= f) (b1 ++ b2) v := by
  intro rest
  show Rd.bind m f _ = _
  rw [List.append_assoc]
  simp only [Rd.bind, h1 _]
  exact h2 rest

theorem Reads.cons {α β} {m : Rd α} {f : α → Rd β} {b : Byte} {b2 : List Byte} {a : α} {v : β}
    (h1 : Reads m [b] a) (h2 : Reads (f a) b2 v) : Reads (m >>= f) (b :: b2) v :=
  Reads.bind (b1 := [b]) h1 h2

theorem Reads.nil {α β} {m : Rd α} {f : α → Rd β} {b : List Byte} {a : α} {v : β}
    (h1 : Reads m b a) (h2 : Reads (f a) [] v) : Reads (m >>= f) b v := by
  have := Reads.bind h1 h2
  simpa using this

theorem reads_byte (b : Byte) : Reads rdByte [b] b := fun _ => rfl

theorem reads_tag (t : VType) : Reads (rdTag t) [tag t] () := by
  intro rest
  simp [rdTag, bind, Rd.bind, rdByte, Pure.pure, Rd.pure]

theorem reads_bool (b : Bool) : Reads desBoolElt (serBoolElt b) b := by
  cases b <;> exact fun _ => rfl

theorem reads_i32 (o : I32) : Reads desI32Elt (serI32Elt o) o := by
  have key : ((((((((o.sshiftRight 24) &&& 0xFF#32).setWidth 8).setWidth 32 : BitVec 32) <<< 8
      + (((o.sshiftRight 16) &&& 0xFF#32).setWidth 8).setWidth 32) <<< 8
      + (((o.sshiftRight 8) &&& 0xFF#32).setWidth 8).setWidth 32) <<< 8
      + ((o &&& 0xFF#32).setWidth 8).setWidth 32)) = o := by
    have e : ∀ x y : BitVec 32, x &&& y = 0#32 → x + y = x ||| y := fun x y h =>
      BitVec.add_eq_or_of_and_eq_zero x y h
    have d : ∀ (x : BitVec 32) (y : Byte), (x <<< 8) + y.setWidth 32 = (x <<< 8) ||| y.setWidth 32 := by
      intro x y
      apply e
      ext i hi
      simp only [BitVec.getElem_and, BitVec.getElem_shiftLeft, BitVec.getElem_setWidth, BitVec.getElem_zero]
      by_cases h : i < 8
      · simp [h]
      · rw [BitVec.getLsbD_of_ge]; · simp
        omega
    rw [d, d, d]
    ext i hi
    simp only [BitVec.getElem_or, BitVec.getElem_shiftLeft, BitVec.getElem_setWidth,
      BitVec.getLsbD_setWidth, BitVec.getLsbD_and,
      BitVec.getLsbD_sshiftRight]
    have : i = 0 ∨ i = 1 ∨ i = 2 ∨ i = 3 ∨ i = 4 ∨ i = 5 ∨ i = 6 ∨ i = 7 ∨ i = 8 ∨ i = 9 ∨ i = 10 ∨
      i = 11 ∨ i = 12 ∨ i = 13 ∨ i = 14 ∨ i = 15 ∨ i = 16 ∨ i = 17 ∨ i = 18 ∨ i = 19 ∨ i = 20 ∨
      i = 21 ∨ i = 22 ∨ i = 23 ∨ i = 24 ∨ i = 25 ∨ i = 26 ∨ i = 27 ∨ i = 28 ∨ i = 29 ∨ i = 30 ∨ i = 31 := by
      omega
    rcases this with h | h | h | h | h | h | h | h | h | h | h | h | h | h | h | h | h | h | h | h |
      h | h | h | h | h | h | h | h | h | h | h | h <;> subst h <;> simp
  intro rest
  simp only [serI32Elt, List.cons_append, List.nil_append, desI32Elt, bind, Pure.pure, Rd.bind, rdByte, Rd.pure]
  rw [key]

theorem toNat_andFF (x : BitVec 64) : (x &&& 0xFF#64).toNat = x.toNat % 256 := by
  rw [BitVec.toNat_and]
  exact Nat.and_two_pow_sub_one_eq_mod x.toNat 8

theorem byteOf64 (l : BitVec 64) (k : Nat) :
    (((l >>> k) &&& 0xFF#64).setWidth 8 : Byte).toNat = l.toNat / 2 ^ k % 256 := by
  rw [BitVec.toNat_setWidth, toNat_andFF, BitVec.toNat_ushiftRight, Nat.shiftRight_eq_div_pow]
  simp

theorem byteOf64_0 (l : BitVec 64) :
    ((l &&& 0xFF#64).setWidth 8 : Byte).toNat = l.toNat % 256 := by
  rw [BitVec.toNat_setWidth, toNat_andFF]
  simp

theorem accStep (l : BitVec 64) (b : Byte) (h : l.toNat < 2 ^ 56) :
    ((l <<< 8) + b.setWidth 64).toNat = l.toNat * 256 + b.toNat := by
  have hb := b.isLt
  simp only [BitVec.toNat_add, BitVec.toNat_shiftLeft, BitVec.toNat_setWidth, Nat.shiftLeft_eq]
  omega

theorem reads_f64 (l : F64) : Reads desF64Elt (serF64Elt l) l := by
  have key : ∀ b0 b1 b2 b3 b4 b5 b6 b7 : Byte,
     b0.toNat = l.toNat / 2 ^ 56 % 256 → b1.toNat = l.toNat / 2 ^ 48 % 256 →
     b2.toNat = l.toNat / 2 ^ 40 % 256 → b3.toNat = l.toNat / 2 ^ 32 % 256 →
     b4.toNat = l.toNat / 2 ^ 24 % 256 → b5.toNat = l.toNat / 2 ^ 16 % 256 →
     b6.toNat = l.toNat / 2 ^ 8 % 256 → b7.toNat = l.toNat % 256 →
     ((((((((b0.setWidth 64 : BitVec 64) <<< 8 + b1.setWidth 64) <<< 8 + b2.setWidth 64) <<< 8
      + b3.setWidth 64) <<< 8 + b4.setWidth 64) <<< 8 + b5.setWidth 64) <<< 8
      + b6.setWidth 64) <<< 8 + b7.setWidth 64) = l := by
    intro b0 b1 b2 b3 b4 b5 b6 b7 h0 h1 h2 h3 h4 h5 h6 h7
    have := l.isLt
    have e0 : (b0.setWidth 64 : BitVec 64).toNat = b0.toNat := by
      rw [BitVec.toNat_setWidth]; have := b0.isLt; omega
    have e1 := accStep (b0.setWidth 64) b1 (by omega)
    have e2 := accStep _ b2 (by rw [e1]; omega)
    have e3 := accStep _ b3 (by rw [e2]; omega)
    have e4 := accStep _ b4 (by rw [e3]; omega)
    have e5 := accStep _ b5 (by rw [e4]; omega)
    have e6 := accStep _ b6 (by rw [e5]; omega)
    have e7 := accStep _ b7 (by rw [e6]; omega)
    apply BitVec.eq_of_toNat_eq
    omega
  intro rest
  simp only [serF64Elt, List.cons_append, List.nil_append, desF64Elt, bind, Pure.pure, Rd.bind, rdByte, Rd.pure]
  rw [key]
  all_goals first | exact byteOf64 l _ | exact byteOf64_0 l

theorem size_split (n : Nat) (h : n ≤ 0xFFFFFF) :
    (n >>> 16) % 256 * 65536 + (n >>> 8) % 256 * 256 + n % 256 = n := by
  simp only [Nat.shiftRight_eq_div_pow]; omega

theorem reads_sizeUnsigned (n : Nat) (h : n ≤ 0xFFFFFF) : Reads desSizeUnsigned (serSize n) n := by
  intro rest
  simp only [serSize, List.cons_append, List.nil_append, desSizeUnsigned, bind, Pure.pure, Rd.bind,
    rdByte, Rd.pure, BitVec.toNat_ofNat]
  congr 1
  simp only [Nat.shiftLeft_eq, Nat.shiftRight_eq_div_pow]
  omega

/-- No byte of the three-byte size field has its top bit set. -/
def sizeBytesLow (n : Nat) : Prop := n % 256 < 128 ∧ n / 256 % 256 < 128 ∧ n / 65536 < 128

instance (n : Nat) : Decidable (sizeBytesLow n) := by unfold sizeBytesLow; infer_instance

theorem charToSizeT_low (cs : Bool) (b : Byte) (h : cs = false ∨ b.toNat < 128) :
    charToSizeT cs b = b.setWidth 64 := by
  unfold charToSizeT
  rcases h with h | h
  · simp [h]
  · split
    · rw [BitVec.signExtend_eq_setWidth_of_msb_false]
      rw [BitVec.msb_eq_decide]; simp; omega
    · rfl

theorem reads_sizeChar (cs : Bool) (n : Nat) (h : n ≤ 0xFFFFFF) (hc : cs = false ∨ sizeBytesLow n) :
    Reads (desSizeChar cs) (serSize n) (BitVec.ofNat 64 n) := by
  intro rest
  simp only [serSize, List.cons_append, List.nil_append, desSizeChar, bind, Pure.pure, Rd.bind,
    rdByte, Rd.pure]
  have c0 : charToSizeT cs (BitVec.ofNat 8 (n >>> 16)) = (BitVec.ofNat 8 (n >>> 16)).setWidth 64 := by
    apply charToSizeT_low; rcases hc with hc | ⟨_, _, hc⟩
    · exact .inl hc
    · right; simp only [BitVec.toNat_ofNat, Nat.shiftRight_eq_div_pow]; omega
  have c1 : charToSizeT cs (BitVec.ofNat 8 (n >>> 8)) = (BitVec.ofNat 8 (n >>> 8)).setWidth 64 := by
    apply charToSizeT_low; rcases hc with hc | ⟨_, hc, _⟩
    · exact .inl hc
    · right; simp only [BitVec.toNat_ofNat, Nat.shiftRight_eq_div_pow]; omega
  have c2 : charToSizeT cs (BitVec.ofNat 8 n) = (BitVec.ofNat 8 n).setWidth 64 := by
    apply charToSizeT_low; rcases hc with hc | ⟨hc, _, _⟩
    · exact .inl hc
    · right; simp only [BitVec.toNat_ofNat]; omega
  rw [c0, c1, c2]
  congr 1
  apply BitVec.eq_of_toNat_eq
  have e0 : ((BitVec.ofNat 8 (n >>> 16)).setWidth 64 : BitVec 64).toNat = n / 65536 := by
    simp only [BitVec.toNat_setWidth, BitVec.toNat_ofNat, Nat.shiftRight_eq_div_pow]; omega
  have e1 := accStep ((BitVec.ofNat 8 (n >>> 16)).setWidth 64) (BitVec.ofNat 8 (n >>> 8)) (by omega)
  have e2 := accStep _ (BitVec.ofNat 8 n) (by rw [e1, e0]; simp only [BitVec.toNat_ofNat]; omega)
  rw [e2, e1, e0]
  simp only [BitVec.toNat_ofNat, Nat.shiftRight_eq_div_pow]
  omega

theorem reads_bytes (s : Str) : Reads (rdBytes s.length) s s := by
  intro rest
  simp [rdBytes]

theorem reads_str {s : Str} {bs} (h : serStrElt s = some bs) : Reads desStrElt bs s := by
  unfold serStrElt at h
  split at h
  · cases h
  · cases h
    exact Reads.bind (reads_sizeUnsigned _ (by omega)) (reads_bytes s)

/-! bit vectors -/

theorem reads_unpackByte (l : List Bool) (h : l.length ≤ 8) :
    unpackByte l.length (packByte l) 0x80#8 = l := by
  match l, h with
  | [], _ => rfl
  | [a], _ => revert a; decide
  | [a, b], _ => revert a b; decide
  | [a, b, c], _ => revert a b c; decide
  | [a, b, c, d], _ => revert a b c d; decide
  | [a, b, c, d, e], _ => revert a b c d e; decide
  | [a, b, c, d, e, f], _ => revert a b c d e f; decide +kernel
  | [a, b, c, d, e, f, g], _ => revert a b c d e f g; decide +kernel
  | [a, b, c, d, e, f, g, i], _ => revert a b c d e f g i; decide +kernel

theorem packBits_nil : packBits [] = [] := by rw [packBits]; simp

theorem reads_packBits (l : List Bool) : Reads (unpackBits l.length) (packBits l) l := by
  by_cases h : l = []
  · subst h; rw [packBits_nil, unpackBits]; exact Reads.pure _
  · have hp : 0 < l.length := List.length_pos_iff.mpr h
    rw [packBits, unpackBits]
    simp only [h, dite_false, if_neg (Nat.pos_iff_ne_zero.mp hp)]
    refine Reads.cons (reads_byte _) ?_
    have ih := reads_packBits (l.drop 8)
    rw [List.length_drop] at ih
    refine Reads.nil ih ?_
    have := reads_unpackByte (l.take 8) (by simp; omega)
    rw [List.length_take, Nat.min_comm] at this
    rw [this, List.take_append_drop]
    exact Reads.pure _
termination_by l.length
decreasing_by
  have : 0 < l.length := List.length_pos_iff.mpr h
  simp; omega

theorem length_packBits (l : List Bool) : (packBits l).length = bitVectorSize l.length := by
  by_cases h : l = []
  · subst h; rw [packBits_nil]; rfl
  · have hp : 0 < l.length := List.length_pos_iff.mpr h
    rw [packBits]
    simp only [h, dite_false, List.length_cons]
    rw [length_packBits (l.drop 8), List.length_drop]
    unfold bitVectorSize
    split <;> split <;> omega
termination_by l.length
decreasing_by
  have : 0 < l.length := List.length_pos_iff.mpr h
  simp; omega

theorem reads_elts {α} {ser : α → Option (List Byte)} {des : Rd α}
    (hsd : ∀ x bs, ser x = some bs → Reads des bs x) :
    ∀ (l : List α) bs, serElts ser l = some bs → Reads (desElts des l.length) bs l
  | [], bs, h => by cases h; exact Reads.pure _
  | x :: xs, bs, h => by
    simp only [serElts, Option.bind_eq_bind, Option.bind_eq_some_iff, Option.pure_def, Option.some.injEq] at h
    obtain ⟨b, hb, r, hr, rfl⟩ := h
    refine Reads.bind (hsd x b hb) ?_
    exact Reads.nil (reads_elts hsd xs r hr) (Reads.pure _)

theorem reads_arr {α} (cs : Bool) (t : VType) {ser : α → Option (List Byte)} {des : Rd α}
    (hsd : ∀ x bs, ser x = some bs → Reads des bs x) {a : Arr α} {bs}
    (wf : a.WF) (hc : cs = false ∨ sizeBytesLow a.size)
    (h : serArr t ser a = some bs) : Reads (desArr cs t des) bs a := by
  unfold serArr at h
  split at h
  · cases h
  · rename_i hs
    simp only [Option.bind_eq_bind, Option.bind_eq_some_iff, Option.pure_def, Option.some.injEq] at h
    obtain ⟨e, he, rfl⟩ := h
    refine Reads.cons (reads_tag t) ?_
    rw [List.append_assoc]
    refine Reads.bind (reads_sizeChar cs _ (by omega) hc) ?_
    have hn : (BitVec.ofNat 64 a.size).toNat = a.size := by
      rw [BitVec.toNat_ofNat]; omega
    rw [hn, if_neg (by unfold vectorMax; omega)]
    refine Reads.bind (reads_packBits a.known) ?_
    have := reads_elts hsd _ _ he
    rw [wf] at this
    exact Reads.nil this (Reads.pure _)

theorem reads_boolArr (cs : Bool) {a : Arr Bool} {bs}
    (wf : a.WF) (hc : cs = false ∨ sizeBytesLow a.size)
    (h : serBoolArr a = some bs) : Reads (desBoolArr cs) bs a := by
  unfold serBoolArr at h
  split at h
  · cases h
  · rename_i hs
    cases h
    refine Reads.cons (reads_tag _) ?_
    rw [List.append_assoc]
    refine Reads.bind (reads_sizeChar cs _ (by omega) hc) ?_
    have hn : (BitVec.ofNat 64 a.size).toNat = a.size := by
      rw [BitVec.toNat_ofNat]; omega
    rw [hn, if_neg (by unfold vectorMax; omega)]
    refine Reads.bind (reads_packBits a.known) ?_
    have := reads_packBits a.contents
    rw [wf] at this
    exact Reads.nil this (Reads.pure _)

theorem reads_peek {β} {f : Byte → Rd β} {b : Byte} {bs : List Byte} {v : β}
    (h : Reads (f b) (b :: bs) v) : Reads (rdPeek >>= f) (b :: bs) v := by
  intro rest
  exact h rest

end Verif.Value
