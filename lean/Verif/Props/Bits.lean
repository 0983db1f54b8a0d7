import Verif.Bits.Model
/-
C135: the searches for bits.
-/
set_option autoImplicit false
namespace Verif.Bits

/-- Bit `i` is the first that has value `v`. -/
def First (v : Bool) (b i : Nat) : Prop := b.testBit i = v ∧ ∀ j < i, b.testBit j ≠ v

theorem first_unique {v : Bool} {b i j : Nat} (h : First v b i) (h' : First v b j) : i = j := by
  rcases Nat.lt_trichotomy i j with k | k | k
  · exact absurd h.1 (h'.2 i k)
  · exact k
  · exact absurd h'.1 (h.2 j k)

theorem low_zero {b k : Nat} (h : b % 2 ^ k = 0) {j : Nat} (hj : j < k) : b.testBit j = false := by
  have : (b % 2 ^ k).testBit j = b.testBit j := by rw [Nat.testBit_mod_two_pow]; simp [hj]
  rw [← this, h]; simp

theorem ex_bit {b : Nat} (h : b ≠ 0) : ∃ i, b.testBit i = true := by
  refine Classical.byContradiction fun hn => h ?_
  apply Nat.eq_of_testBit_eq
  intro i
  simp only [Nat.zero_testBit]
  cases hb : b.testBit i with
  | false => rfl
  | true => exact absurd ⟨i, hb⟩ hn

theorem ex_first {b : Nat} (h : b ≠ 0) : ∃ i, First true b i := by
  obtain ⟨i, hi⟩ := ex_bit h
  induction i using Nat.strongRecOn with
  | _ i ih =>
    by_cases hj : ∃ j, j < i ∧ b.testBit j = true
    · obtain ⟨j, h1, h2⟩ := hj; exact ih j h1 h2
    · exact ⟨i, hi, fun j hji hb => hj ⟨j, hji, hb⟩⟩

/-- A halving keeps the first bit. -/
theorem halve_first {k n t : Nat} (ht : t ≠ 0) (hb : t < 2 ^ (2 * k)) {i : Nat} (hi : First true t i) :
    (halve k n t).2 ≠ 0 ∧ (halve k n t).2 < 2 ^ k ∧ ∃ i', First true (halve k n t).2 i' ∧ (halve k n t).1 + i' = n + i := by
  unfold halve
  split
  · next h =>
    have hki : k ≤ i := by
      rcases Nat.lt_or_ge i k with c | c
      · exact absurd hi.1 (by rw [low_zero h c]; simp)
      · exact c
    have hd : t / 2 ^ k ≠ 0 := by
      intro hz
      have := Nat.div_add_mod t (2 ^ k)
      rw [hz, h] at this
      simp at this
      exact ht this.symm
    refine ⟨hd, ?_, i - k, ⟨?_, fun j hj => ?_⟩, by omega⟩
    · apply Nat.div_lt_of_lt_mul
      rw [← Nat.pow_add]
      rw [show k + k = 2 * k by omega]
      exact hb
    · rw [Nat.testBit_div_two_pow]
      rw [show i - k + k = i by omega, hi.1]
    · rw [Nat.testBit_div_two_pow]
      exact hi.2 _ (by omega)
  · next h =>
    refine ⟨h, Nat.mod_lt _ (Nat.two_pow_pos k), i, ⟨?_, fun j hj => ?_⟩, rfl⟩
    · rw [Nat.testBit_mod_two_pow, hi.1]
      simp only [Bool.and_true, decide_eq_true_eq]
      obtain ⟨j, hj⟩ := ex_bit h
      rw [Nat.testBit_mod_two_pow] at hj
      simp only [Bool.and_eq_true, decide_eq_true_eq] at hj
      rcases Nat.lt_or_ge i k with c | c
      · exact c
      · exact absurd hj.2 (hi.2 j (by omega))
    · rw [Nat.testBit_mod_two_pow]
      intro hc
      simp only [Bool.and_eq_true, decide_eq_true_eq] at hc
      exact hi.2 j hj hc.2

/-- **C135, words.** The first one bit of a word; nothing exactly if there is none. -/
theorem c135_one (b : Nat) (hb : b < 2 ^ 64) : (firstOne b = none ↔ b = 0) ∧ ∀ i, firstOne b = some i ↔ First true b i := by
  by_cases h0 : b = 0
  · subst h0
    refine ⟨by simp [firstOne], fun i => ⟨fun h => by simp [firstOne] at h, fun h => ?_⟩⟩
    exact absurd h.1 (by simp)
  · obtain ⟨i, hi⟩ := ex_first h0
    have key : firstOne b = some i := by
      unfold firstOne
      rw [if_neg h0]
      obtain ⟨a1, a2, i1, a3, a4⟩ := halve_first (k := 32) (n := 0) h0 hb hi
      generalize halve 32 0 b = p1 at *
      obtain ⟨n1, t1⟩ := p1
      dsimp only at *
      obtain ⟨b1, b2, i2, b3, b4⟩ := halve_first (k := 16) (n := n1) a1 a2 a3
      generalize halve 16 n1 t1 = p2 at *
      obtain ⟨n2, t2⟩ := p2
      dsimp only at *
      obtain ⟨c1, c2, i3, c3, c4⟩ := halve_first (k := 8) (n := n2) b1 b2 b3
      generalize halve 8 n2 t2 = p3 at *
      obtain ⟨n3, t3⟩ := p3
      dsimp only at *
      obtain ⟨d1, d2, i4, d3, d4⟩ := halve_first (k := 4) (n := n3) c1 c2 c3
      generalize halve 4 n3 t3 = p4 at *
      obtain ⟨n4, t4⟩ := p4
      dsimp only at *
      obtain ⟨e1, e2, i5, e3, e4⟩ := halve_first (k := 2) (n := n4) d1 d2 d3
      generalize halve 2 n4 t4 = p5 at *
      obtain ⟨n5, t5⟩ := p5
      dsimp only at *
      have hn : n5 + i5 = i := by omega
      have h5 : i5 = if t5 % 2 = 1 then 0 else 1 := by
        split
        · next h => exact first_unique e3 ⟨by simp [Nat.testBit_zero, h], fun j hj => by omega⟩
        · next h =>
          refine first_unique e3 ⟨?_, fun j hj => ?_⟩
          · have : t5 = 2 := by omega
            subst this; decide
          · have : j = 0 := by omega
            subst this
            simp [Nat.testBit_zero, h]
      rw [← hn, h5]
      split <;> rfl
    refine ⟨by simp [key, h0], fun j => ⟨fun h => ?_, fun h => ?_⟩⟩
    · rw [key] at h; cases h; exact hi
    · rw [key, first_unique hi h]

theorem complement_bit {b : Nat} {k : Nat} (hb : b < 2 ^ k) (i : Nat) : (2 ^ k - 1 - b).testBit i = (decide (i < k) && !b.testBit i) := by
  rw [Nat.sub_sub, Nat.add_comm 1 b]
  exact Nat.testBit_two_pow_sub_succ hb i

/-- **C135, words.** The first zero bit of a word; nothing exactly if all its bits are ones. -/
theorem c135_zero (b : Nat) (hb : b < 2 ^ 64) : (firstZero b = none ↔ b = 2 ^ 64 - 1) ∧ ∀ i, firstZero b = some i ↔ i < 64 ∧ First false b i := by
  have hc : 2 ^ 64 - 1 - b < 2 ^ 64 := by omega
  obtain ⟨h1, h2⟩ := c135_one (2 ^ 64 - 1 - b) hc
  unfold firstZero
  refine ⟨h1.trans (by omega), fun i => (h2 i).trans ?_⟩
  simp only [First, complement_bit hb]
  constructor
  · rintro ⟨g1, g2⟩
    simp only [Bool.and_eq_true, decide_eq_true_eq, Bool.not_eq_true'] at g1
    refine ⟨g1.1, g1.2, fun j hj hbj => ?_⟩
    refine g2 j hj ?_
    simp [hbj, show j < 64 by omega]
  · rintro ⟨g0, g1, g2⟩
    refine ⟨by simp [g0, g1], fun j hj => ?_⟩
    have := g2 j hj
    simp only [ne_eq, Bool.not_eq_false] at this
    simp [this]

theorem oneLoop_spec (size : Nat) : ∀ (fuel n tmp : Nat), size ≤ n + fuel → tmp ≠ 0 → tmp < 2 ^ (size - n) → ∀ i, First true tmp i → oneLoop size fuel n tmp = some (n + i) := by
  intro fuel
  induction fuel with
  | zero =>
    intro n tmp h1 h2 h3
    rw [show size - n = 0 by omega] at h3
    omega
  | succ fuel ih =>
    intro n tmp h1 h2 h3 i hi
    have hn : n < size := by
      rcases Nat.lt_or_ge n size with c | c
      · exact c
      · rw [show size - n = 0 by omega] at h3; omega
    rw [oneLoop, if_pos hn]
    split
    · next h =>
      have : First true (tmp % 2 ^ 64) i := by
        refine ⟨?_, fun j hj => ?_⟩
        · rw [Nat.testBit_mod_two_pow, hi.1]
          simp only [Bool.and_true, decide_eq_true_eq]
          obtain ⟨j, hj⟩ := ex_bit h
          rw [Nat.testBit_mod_two_pow] at hj
          simp only [Bool.and_eq_true, decide_eq_true_eq] at hj
          rcases Nat.lt_or_ge i 64 with c | c
          · exact c
          · exact absurd hj.2 (hi.2 j (by omega))
        · rw [Nat.testBit_mod_two_pow]
          intro hc
          simp only [Bool.and_eq_true, decide_eq_true_eq] at hc
          exact hi.2 j hj hc.2
      rw [((c135_one _ (Nat.mod_lt _ (Nat.two_pow_pos 64))).2 i).2 this]
      rfl
    · next h =>
      have h : tmp % 2 ^ 64 = 0 := by simpa using h
      have hki : 64 ≤ i := by
        rcases Nat.lt_or_ge i 64 with c | c
        · exact absurd hi.1 (by rw [low_zero h c]; simp)
        · exact c
      have hd : tmp / 2 ^ 64 ≠ 0 := by
        intro hz
        have := Nat.div_add_mod tmp (2 ^ 64)
        rw [hz, h] at this
        exact h2 this.symm
      have hlt : tmp / 2 ^ 64 < 2 ^ (size - (n + 64)) := by
        rcases Nat.lt_or_ge (size - n) 64 with c | c
        · exfalso
          have : tmp < 2 ^ 64 := Nat.lt_of_lt_of_le h3 (Nat.pow_le_pow_right (by omega) (by omega))
          rw [Nat.div_eq_of_lt this] at hd
          exact hd rfl
        · apply Nat.div_lt_of_lt_mul
          rw [← Nat.pow_add, show 64 + (size - (n + 64)) = size - n by omega]
          exact h3
      have hf : First true (tmp / 2 ^ 64) (i - 64) := by
        refine ⟨?_, fun j hj => ?_⟩
        · rw [Nat.testBit_div_two_pow, show i - 64 + 64 = i by omega, hi.1]
        · rw [Nat.testBit_div_two_pow]; exact hi.2 _ (by omega)
      rw [ih (n + 64) _ (by omega) hd hlt _ hf]
      congr 1; omega

/-- **C135, bit sets of any size.** -/
theorem c135_set_one (size b : Nat) (hb : b < 2 ^ size) : (setFirstOne size b = none ↔ b = 0) ∧ ∀ i, setFirstOne size b = some i ↔ First true b i := by
  by_cases h0 : b = 0
  · subst h0
    refine ⟨by simp [setFirstOne], fun i => ⟨fun h => by simp [setFirstOne] at h, fun h => ?_⟩⟩
    exact absurd h.1 (by simp)
  · obtain ⟨i, hi⟩ := ex_first h0
    have key : setFirstOne size b = some i := by
      rw [setFirstOne, if_neg h0, oneLoop_spec size size 0 b (by omega) h0 (by simpa using hb) i hi]
      simp
    refine ⟨by simp [key, h0], fun j => ⟨fun h => ?_, fun h => ?_⟩⟩
    · rw [key] at h; cases h; exact hi
    · rw [key, first_unique hi h]

theorem zeroLoop_spec (size : Nat) : ∀ (fuel n tmp : Nat), size ≤ n + fuel → ∀ i, n + i < size → First false tmp i → zeroLoop size fuel n tmp = some (n + i) := by
  intro fuel
  induction fuel with
  | zero => intro n tmp h1 i h2; omega
  | succ fuel ih =>
    intro n tmp h1 i h2 hi
    have hm : tmp % 2 ^ 64 < 2 ^ 64 := Nat.mod_lt _ (Nat.two_pow_pos 64)
    rw [zeroLoop, if_pos (by omega)]
    obtain ⟨z1, z2⟩ := c135_zero _ hm
    by_cases hlt : i < 64
    · have hf : First false (tmp % 2 ^ 64) i := by
        refine ⟨?_, fun j hj => ?_⟩
        · rw [Nat.testBit_mod_two_pow, hi.1]; simp
        · rw [Nat.testBit_mod_two_pow]
          have := hi.2 j hj
          simp only [ne_eq, Bool.not_eq_false] at this
          simp [this, show j < 64 by omega]
      have hk := (z2 i).2 ⟨hlt, hf⟩
      rw [if_pos, hk]
      · rfl
      · intro hz
        rw [z1.2 (by omega)] at hk
        cases hk
    · have hz : tmp % 2 ^ 64 = 2 ^ 64 - 1 := by
        apply Nat.eq_of_testBit_eq
        intro j
        rw [Nat.testBit_mod_two_pow, Nat.testBit_two_pow_sub_one]
        by_cases hj : j < 64
        · have := hi.2 j (by omega)
          simp only [ne_eq, Bool.not_eq_false] at this
          simp [this]
        · simp [hj]
      rw [if_neg (by omega)]
      have hf : First false (tmp / 2 ^ 64) (i - 64) := by
        refine ⟨?_, fun j hj => ?_⟩
        · rw [Nat.testBit_div_two_pow, show i - 64 + 64 = i by omega, hi.1]
        · rw [Nat.testBit_div_two_pow]; exact hi.2 _ (by omega)
      rw [ih (n + 64) _ (by omega) _ (by omega) hf]
      congr 1; omega

/-- **C135, bit sets of any size.** -/
theorem c135_set_zero (size b : Nat) (hb : b < 2 ^ size) : (setFirstZero size b = none ↔ ∀ i < size, b.testBit i = true) ∧ ∀ i, setFirstZero size b = some i ↔ i < size ∧ First false b i := by
  have hall : b = 2 ^ size - 1 ↔ ∀ i < size, b.testBit i = true := by
    constructor
    · rintro rfl i hi; rw [Nat.testBit_two_pow_sub_one]; simpa using hi
    · intro h
      apply Nat.eq_of_testBit_eq
      intro i
      rw [Nat.testBit_two_pow_sub_one]
      by_cases hi : i < size
      · simp [h i hi, hi]
      · simp only [hi, decide_false]
        exact Nat.testBit_lt_two_pow (Nat.lt_of_lt_of_le hb (Nat.pow_le_pow_right (by omega) (by omega)))
  by_cases h0 : b = 2 ^ size - 1
  · have hn : setFirstZero size b = none := by rw [setFirstZero, if_pos h0]
    refine ⟨by simp only [hn, true_iff]; exact hall.1 h0, fun i => ⟨fun h => (by rw [hn] at h; cases h), fun ⟨h1, h2⟩ => ?_⟩⟩
    have := hall.1 h0 i h1
    rw [h2.1] at this; cases this
  · have hlt : 2 ^ size - 1 - b ≠ 0 := by omega
    obtain ⟨i, hi⟩ := ex_first hlt
    have hbit := complement_bit hb
    have his : i < size ∧ b.testBit i = false := by
      have := hi.1
      rw [hbit] at this
      simpa using this
    have hf : First false b i := by
      refine ⟨his.2, fun j hj hc => hi.2 j hj ?_⟩
      rw [hbit]; simp [hc]; omega
    have key : setFirstZero size b = some i := by
      rw [setFirstZero, if_neg h0, zeroLoop_spec size size 0 b (by omega) i (by omega) hf]
      simp
    refine ⟨?_, fun j => ⟨fun h => ?_, fun h => ?_⟩⟩
    · simp only [key, reduceCtorEq, false_iff]
      intro h
      exact h0 (hall.2 h)
    · rw [key] at h; cases h; exact ⟨his.1, hf⟩
    · rw [key, first_unique hf h.2]

/-- Words and sets. -/
example : firstOne (2 ^ 63) = some 63 ∧ firstOne 40 = some 3 ∧ firstZero 7 = some 3 ∧ firstZero (2 ^ 64 - 1) = none ∧ setFirstOne 100 (2 ^ 70 + 2 ^ 80) = some 70 ∧
    setFirstZero 100 (2 ^ 64 - 1) = some 64 ∧ setFirstZero 3 7 = none ∧ setFirstZero 3 3 = some 2 := by decide

end Verif.Bits
