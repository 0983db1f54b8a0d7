import Mathlib.Tactic.Linarith
import Mathlib.Tactic.NormNum
import Verif.Time.Model

/-!
C60–C63: time arithmetic, conversion, wake-ups, ticks.
-/
namespace Verif.Time

/-! ## Arithmetic -/

/-- The time in fractions. -/
def TV.total (M : Int) (t : TV) : Int := t.sec * M + t.frac

/-- Less than a second of fractions, of the same sign as the seconds. -/
structure TV.Normal (M : Int) (t : TV) : Prop where
  lo : -M < t.frac
  hi : t.frac < M
  pos : 0 < t.sec → 0 ≤ t.frac
  neg : t.sec < 0 → t.frac ≤ 0

theorem norm_spec {M : Int} (_ : 0 < M) (t : TV) (h1 : -(2 * M) < t.frac) (h2 : t.frac < 2 * M) : (norm M t).Normal M ∧ (norm M t).total M = t.total M := by
  unfold norm
  dsimp only
  split
  · dsimp only
    split
    · omega
    · split
      · refine ⟨⟨by dsimp only; omega, by dsimp only; omega, by dsimp only; omega, by dsimp only; omega⟩, ?_⟩
        simp only [TV.total]; ring_nf
      · refine ⟨⟨by dsimp only; omega, by dsimp only; omega, by dsimp only; omega, by dsimp only; omega⟩, ?_⟩
        simp only [TV.total]; ring_nf
  · split
    · dsimp only
      split
      · refine ⟨⟨by dsimp only; omega, by dsimp only; omega, by dsimp only; omega, by dsimp only; omega⟩, ?_⟩
        simp only [TV.total]; ring_nf
      · split
        · omega
        · refine ⟨⟨by dsimp only; omega, by dsimp only; omega, by dsimp only; omega, by dsimp only; omega⟩, ?_⟩
          simp only [TV.total]; ring_nf
    · split
      · refine ⟨⟨by dsimp only; omega, by dsimp only; omega, by dsimp only; omega, by dsimp only; omega⟩, ?_⟩
        simp only [TV.total]; ring_nf
      · split
        · refine ⟨⟨by dsimp only; omega, by dsimp only; omega, by dsimp only; omega, by dsimp only; omega⟩, ?_⟩
          simp only [TV.total]; ring_nf
        · exact ⟨⟨by omega, by omega, by omega, by omega⟩, rfl⟩

/-- **C60.** Sums and differences of times are exact, and come out in normal form. -/
theorem c60_add_sub (M : Int) (hM : 0 < M) (a b : TV) (ha : a.Normal M) (hb : b.Normal M) :
    (a.add M b).total M = a.total M + b.total M ∧ (a.add M b).Normal M ∧ (a.sub M b).total M = a.total M - b.total M ∧ (a.sub M b).Normal M := by
  obtain ⟨a1, a2, _, _⟩ := ha
  obtain ⟨b1, b2, _, _⟩ := hb
  have h1 := norm_spec hM ⟨a.sec + b.sec, a.frac + b.frac⟩ (by dsimp only; omega) (by dsimp only; omega)
  have h2 := norm_spec hM ⟨a.sec - b.sec, a.frac - b.frac⟩ (by dsimp only; omega) (by dsimp only; omega)
  refine ⟨h1.2.trans ?_, h1.1, h2.2.trans ?_, h2.1⟩
  · simp only [TV.total]; ring
  · simp only [TV.total]; ring

theorem lt_total {M : Int} (hM : 0 < M) {a b : TV} (ha : a.Normal M) (hb : b.Normal M) (h : a.sec < b.sec) : a.total M < b.total M := by
  obtain ⟨a1, a2, a3, a4⟩ := ha
  obtain ⟨b1, b2, b3, b4⟩ := hb
  simp only [TV.total]
  have h' : a.sec + 1 ≤ b.sec := h
  have : (a.sec + 1) * M ≤ b.sec * M := Int.mul_le_mul_of_nonneg_right h' (by omega)
  rw [Int.add_mul] at this
  rcases Int.lt_trichotomy b.sec 0 with hb0 | hb0 | hb0
  · have := a4 (by omega); omega
  · have := a4 (by omega); omega
  · have := b3 hb0; omega

/-- **C60.** The comparisons of times in normal form are those of the times they stand for; exactly one of `<`, `==`, `>` holds. -/
theorem c60_order (M : Int) (hM : 0 < M) (a b : TV) (ha : a.Normal M) (hb : b.Normal M) :
    (a.lt b = true ↔ a.total M < b.total M) ∧ (a.gt b = true ↔ b.total M < a.total M) ∧ (a.eq b = true ↔ a.total M = b.total M) := by
  have key : ∀ {a b : TV}, a.Normal M → b.Normal M → (a.sec < b.sec ∨ (a.sec = b.sec ∧ a.frac < b.frac) ↔ a.total M < b.total M) := by
    intro a b ha hb
    constructor
    · rintro (h | ⟨h1, h2⟩)
      · exact lt_total hM ha hb h
      · simp only [TV.total, h1]; omega
    · intro h
      rcases Int.lt_trichotomy a.sec b.sec with h1 | h1 | h1
      · exact .inl h1
      · refine .inr ⟨h1, ?_⟩
        simp only [TV.total, h1] at h; omega
      · have := lt_total hM hb ha h1; omega
  refine ⟨?_, ?_, ?_⟩
  · rw [← key ha hb]; simp [TV.lt]
  · rw [← key hb ha]
    simp only [TV.gt, Bool.or_eq_true, Bool.and_eq_true, decide_eq_true_eq]
    omega
  · simp only [TV.eq, Bool.and_eq_true, decide_eq_true_eq]
    constructor
    · rintro ⟨h1, h2⟩; simp only [TV.total, h1, h2]
    · intro h
      rcases Int.lt_trichotomy a.sec b.sec with h1 | h1 | h1
      · have := lt_total hM ha hb h1; omega
      · refine ⟨h1, ?_⟩
        simp only [TV.total, h1] at h; omega
      · have := lt_total hM hb ha h1; omega

/-- Without normal form the comparison is wrong: 2 s and 1 s + 1500000 µs. -/
theorem c60_order_needs_normal : ∃ a b : TV, a.lt b = true ∧ b.total 1000000 < a.total 1000000 := ⟨⟨1, 1500000⟩, ⟨2, 0⟩, by decide, by decide⟩

example : (⟨-1, -999999⟩ : TV).Normal 1000000 ∧ (⟨0, 999999⟩ : TV).Normal 1000000 ∧ (⟨0, 999999⟩ : TV).sub 1000000 ⟨-1, -999999⟩ = ⟨2, 999998⟩ :=
  ⟨⟨by decide, by decide, by decide, by decide⟩, ⟨by decide, by decide, by decide, by decide⟩, by decide⟩

/-! ## Conversion -/

/-- What is assumed of rounding: it keeps the order, and integers up to `M`. -/
structure Rounds (M : Int) (rnd : ℚ → ℚ) : Prop where
  mono : ∀ x y, x ≤ y → rnd x ≤ rnd y
  int : ∀ n : Int, -M ≤ n → n ≤ M → rnd n = n

theorem trunc_nonneg {x : ℚ} (h : 0 ≤ x) : (trunc x : ℚ) ≤ x ∧ x < trunc x + 1 ∧ 0 ≤ trunc x := by
  unfold trunc; rw [if_pos h]
  exact ⟨Int.floor_le x, Int.lt_floor_add_one x, Int.floor_nonneg.2 h⟩

theorem trunc_neg {x : ℚ} (h : x < 0) : x ≤ trunc x ∧ (trunc x : ℚ) - 1 < x ∧ trunc x ≤ 0 := by
  unfold trunc; rw [if_neg (by linarith)]
  refine ⟨Int.le_ceil x, by have := Int.ceil_lt_add_one x; linarith, ?_⟩
  rw [Int.ceil_le]; exact_mod_cast h.le

theorem trunc_mono {x y : ℚ} (h : x ≤ y) : trunc x ≤ trunc y := by
  by_cases hx : 0 ≤ x
  · unfold trunc; rw [if_pos hx, if_pos (by linarith)]; exact Int.floor_le_floor h
  · by_cases hy : 0 ≤ y
    · have := (trunc_neg (x := x) (by linarith)).2.2
      have := (trunc_nonneg hy).2.2
      omega
    · unfold trunc; rw [if_neg hx, if_neg hy]; exact Int.ceil_le_ceil h

theorem trunc_int (n : Int) : trunc (n : ℚ) = n := by unfold trunc; simp

/-- The fractions before normalisation. -/
def fracOf (M : Int) (rnd : ℚ → ℚ) (d : ℚ) : Int := trunc (rnd (M * (d - trunc d)))

theorem frac_nonneg {M : Int} {rnd : ℚ → ℚ} (hM : 0 < M) (r : Rounds M rnd) {d : ℚ} (h : 0 ≤ d) : 0 ≤ fracOf M rnd d ∧ fracOf M rnd d ≤ M := by
  obtain ⟨h1, h2, _⟩ := trunc_nonneg h
  have hMq : (0 : ℚ) < M := by exact_mod_cast hM
  have l : (0 : ℚ) ≤ M * (d - trunc d) := mul_nonneg hMq.le (by linarith)
  have u : (M : ℚ) * (d - trunc d) ≤ M := by nlinarith
  have l' := r.mono _ _ l
  have u' := r.mono _ _ u
  rw [show (0 : ℚ) = ((0 : Int) : ℚ) by norm_num, r.int 0 (by omega) (by omega)] at l'
  rw [r.int M (by omega) (by omega)] at u'
  have a := trunc_mono l'
  have b := trunc_mono u'
  rw [trunc_int] at a b
  exact ⟨a, b⟩

theorem frac_neg {M : Int} {rnd : ℚ → ℚ} (hM : 0 < M) (r : Rounds M rnd) {d : ℚ} (h : d < 0) : -M ≤ fracOf M rnd d ∧ fracOf M rnd d ≤ 0 := by
  obtain ⟨h1, h2, _⟩ := trunc_neg h
  have hMq : (0 : ℚ) < M := by exact_mod_cast hM
  have l : (M : ℚ) * (d - trunc d) ≤ 0 := mul_nonpos_of_nonneg_of_nonpos hMq.le (by linarith)
  have u : (-M : ℚ) ≤ M * (d - trunc d) := by nlinarith
  have l' := r.mono _ _ l
  have u' := r.mono _ _ u
  rw [show (0 : ℚ) = ((0 : Int) : ℚ) by norm_num, r.int 0 (by omega) (by omega)] at l'
  rw [show (-M : ℚ) = ((-M : Int) : ℚ) by push_cast; ring, r.int (-M) (by omega) (by omega)] at u'
  have a := trunc_mono l'
  have b := trunc_mono u'
  rw [trunc_int] at a b
  exact ⟨b, a⟩

theorem frac_bound {M : Int} {rnd : ℚ → ℚ} (hM : 0 < M) (r : Rounds M rnd) (d : ℚ) : -M ≤ fracOf M rnd d ∧ fracOf M rnd d ≤ M := by
  rcases le_or_gt 0 d with h | h
  · have := frac_nonneg hM r h; omega
  · have := frac_neg hM r h; omega

theorem ofDouble_total {M : Int} {rnd : ℚ → ℚ} (hM : 0 < M) (r : Rounds M rnd) (mem : TV) {d : ℚ} (h1 : -2 ^ 63 ≤ d) (h2 : d ≤ 2 ^ 63) :
    (ofDouble M rnd mem d).Normal M ∧ (ofDouble M rnd mem d).total M = trunc d * M + fracOf M rnd d := by
  unfold ofDouble
  rw [if_neg (by rw [not_or, not_lt, not_lt]; exact ⟨h2, h1⟩)]
  have := frac_bound hM r d
  exact norm_spec hM _ (by unfold fracOf at this; dsimp only; omega) (by unfold fracOf at this; dsimp only; omega)

/-- **C61.** A number of seconds in the range of `time_t` converts to a time in normal form that differs from it by less than one fraction, apart from the
rounding error `ε` of the one multiplication. -/
theorem c61_within_a_fraction (M : Int) (rnd : ℚ → ℚ) (hM : 0 < M) (r : Rounds M rnd) (mem : TV) (d ε : ℚ) (h1 : -2 ^ 63 ≤ d) (h2 : d < 2 ^ 63)
    (he : ∀ x, -(M : ℚ) ≤ x → x ≤ M → |rnd x - x| ≤ ε) :
    (ofDouble M rnd mem d).Normal M ∧ |((ofDouble M rnd mem d).total M : ℚ) - M * d| < 1 + ε := by
  obtain ⟨hn, ht⟩ := ofDouble_total hM r mem h1 h2.le
  refine ⟨hn, ?_⟩
  rw [ht]
  have hMq : (0 : ℚ) < M := by exact_mod_cast hM
  have key : -(M : ℚ) ≤ M * (d - trunc d) ∧ M * (d - trunc d) ≤ M := by
    rcases le_or_gt 0 d with h | h
    · obtain ⟨a, b, _⟩ := trunc_nonneg h
      constructor <;> nlinarith
    · obtain ⟨a, b, _⟩ := trunc_neg h
      constructor <;> nlinarith
  have e := he _ key.1 key.2
  have t : |(fracOf M rnd d : ℚ) - rnd (M * (d - trunc d))| < 1 := by
    unfold fracOf
    generalize rnd (M * (d - trunc d)) = y
    rcases le_or_gt 0 y with h | h
    · obtain ⟨a, b, _⟩ := trunc_nonneg h
      rw [abs_lt]; constructor <;> linarith
    · obtain ⟨a, b, _⟩ := trunc_neg h
      rw [abs_lt]; constructor <;> linarith
  have : ((trunc d * M + fracOf M rnd d : Int) : ℚ) - M * d = ((fracOf M rnd d : ℚ) - rnd (M * (d - trunc d))) + (rnd (M * (d - trunc d)) - M * (d - trunc d)) := by
    push_cast; ring
  rw [this]
  exact lt_of_le_of_lt (abs_add_le _ _) (by linarith)

/-- **C61.** The conversion keeps the order: a later number of seconds never becomes an earlier time. -/
theorem c61_monotone (M : Int) (rnd : ℚ → ℚ) (hM : 0 < M) (r : Rounds M rnd) (mem mem' : TV) (d d' : ℚ) (h1 : -2 ^ 63 ≤ d) (h2 : d' < 2 ^ 63) (hd : d ≤ d') :
    (ofDouble M rnd mem d).total M ≤ (ofDouble M rnd mem' d').total M := by
  rw [(ofDouble_total hM r mem h1 (by linarith)).2, (ofDouble_total hM r mem' (by linarith) h2.le).2]
  have hMq : (0 : ℚ) < M := by exact_mod_cast hM
  have ht := trunc_mono hd
  rcases Int.lt_or_eq_of_le ht with h | h
  · have hs : (trunc d + 1) * M ≤ trunc d' * M := Int.mul_le_mul_of_nonneg_right h (by omega)
    rw [Int.add_mul] at hs
    rcases le_or_gt 0 d with h0 | h0
    · have := frac_nonneg hM r h0
      have := frac_nonneg hM r (d := d') (by linarith)
      omega
    · have := frac_neg hM r h0
      rcases le_or_gt 0 d' with h0' | h0'
      · have := frac_nonneg hM r h0'
        omega
      · have := frac_neg hM r h0'
        omega
  · have : fracOf M rnd d ≤ fracOf M rnd d' := by
      unfold fracOf
      refine trunc_mono (r.mono _ _ ?_)
      rw [h]; nlinarith
    rw [h]; omega

/-- **C61 fails** out of range: a request far in the future (or the past) yields whatever was in memory. -/
theorem c61_out_of_range (M : Int) (rnd : ℚ → ℚ) (mem : TV) (d : ℚ) (h : 2 ^ 63 < d ∨ d < -2 ^ 63) : ofDouble M rnd mem d = mem := by
  unfold ofDouble; rw [if_pos h]

/-- The double nearest to 1.000001 (that is, `timevalToDouble` of 1 s 1 µs). -/
def oneAndAMicro : ℚ := 4503604130970123 / 2 ^ 52

/-- It is the nearest. -/
theorem oneAndAMicro_nearest : |oneAndAMicro - (1 + 1 / 1000000)| < 1 / 2 ^ 53 := by
  unfold oneAndAMicro; rw [abs_lt]; constructor <;> norm_num

/-- **C61 fails** as to going back and forth: 1 s 1 µs, converted to a double and back, is 1 s 0 µs, since the fraction is cut off and not rounded. -/
theorem c61_round_trip_loses (rnd : ℚ → ℚ) (mem : TV) (mono : ∀ x y, x ≤ y → rnd x ≤ rnd y) (h0 : rnd 0 = 0) (h1 : rnd (1 - 1 / 2 ^ 53) = 1 - 1 / 2 ^ 53) :
    ofDouble 1000000 rnd mem oneAndAMicro = ⟨1, 0⟩ := by
  have ht : trunc oneAndAMicro = 1 := by
    unfold trunc oneAndAMicro
    rw [if_pos (by norm_num), Int.floor_eq_iff]
    constructor <;> norm_num
  have hf : trunc (rnd (((1000000 : Int) : ℚ) * (oneAndAMicro - ((1 : Int) : ℚ)))) = 0 := by
    have a := mono 0 (((1000000 : Int) : ℚ) * (oneAndAMicro - ((1 : Int) : ℚ))) (by unfold oneAndAMicro; norm_num)
    have b := mono (((1000000 : Int) : ℚ) * (oneAndAMicro - ((1 : Int) : ℚ))) (1 - 1 / 2 ^ 53) (by unfold oneAndAMicro; norm_num)
    rw [h0] at a; rw [h1] at b
    unfold trunc
    rw [if_pos a, Int.floor_eq_iff]
    constructor
    · exact_mod_cast a
    · have : (1 : ℚ) - 1 / 2 ^ 53 < 1 := by norm_num
      push_cast; linarith
  unfold ofDouble
  rw [if_neg (by unfold oneAndAMicro; norm_num), ht, hf]
  decide

/-- Exact arithmetic is an instance of the assumptions. -/
example : Rounds 1000000 id ∧ ofDouble 1000000 id ⟨7, 7⟩ (-5 / 2) = ⟨-2, -500000⟩ := by
  refine ⟨⟨fun _ _ h => h, fun _ _ _ => rfl⟩, ?_⟩
  have ht : trunc (-5 / 2) = -2 := by
    unfold trunc; rw [if_neg (by norm_num), Int.ceil_eq_iff]; constructor <;> norm_num
  have hf : trunc (id (((1000000 : Int) : ℚ) * (-5 / 2 - ((-2 : Int) : ℚ)))) = -500000 := by
    rw [show id (((1000000 : Int) : ℚ) * (-5 / 2 - ((-2 : Int) : ℚ))) = ((-500000 : Int) : ℚ) by simp; norm_num, trunc_int]
  unfold ofDouble
  rw [if_neg (by norm_num), ht, hf]
  decide

/-! ## Wake-ups -/

/-- A request for time `d`, made in this history, has been served: the executive has been notified at a time not before `d`. -/
def Served (s : St) (d : Int) (n : Nat) : Prop := ∃ t ∈ s.told.take (s.told.length - n), d ≤ t

/-- The request stands: the timer is set for it. -/
def Standing (s : St) (d : Int) : Prop := s.armed = some d ∧ s.next = d ∧ s.interval = 0

/-- No further request is made in these events. -/
def NoSet : List Ev → Prop
  | [] => True
  | .set _ :: _ => False
  | _ :: es => NoSet es

theorem served_tell {s : St} {d : Int} {n : Nat} (h : Served s d n) : Served s.tell d n := by
  obtain ⟨t, ht, hd⟩ := h
  refine ⟨t, ?_, hd⟩
  by_cases hn : n ≤ s.told.length
  · rw [St.tell, List.length_cons, Nat.succ_sub hn, List.take_succ_cons]
    exact List.mem_cons_of_mem _ ht
  · rw [Nat.sub_eq_zero_of_le (by omega)] at ht
    simp at ht

theorem served_now {s : St} {d : Int} {n : Nat} (hn : n ≤ s.told.length) (h : d ≤ s.now) : Served s.tell d n := by
  refine ⟨s.now, ?_, h⟩
  rw [St.tell, List.length_cons, Nat.succ_sub hn, List.take_succ_cons]
  exact List.mem_cons_self

theorem told_grows_set (k : Kind) (s : St) (d : Int) : s.told.length ≤ (s.setTimer k d).told.length := by
  unfold St.setTimer
  split
  · exact Nat.le_refl _
  · split
    · simp [St.tell]
    · cases k <;> exact Nat.le_refl _

theorem timeout_told (k : Kind) (s : St) (late : Nat) : s.told.length ≤ (s.timeout k late).told.length := by
  unfold St.timeout
  dsimp only
  split
  · have := told_grows_set k { s with now := s.now + late } s.next
    simp only [St.tell, List.length_cons] at this ⊢; omega
  · simp [St.tell]

/-- Setting the timer serves the request or makes it stand, unless it asks for this very moment of the interval timer (or, for the other, for the
beginning of time). -/
theorem set_serves (k : Kind) {s : St} {d : Int} (hi : s.interval = 0) (hd : 0 < d) (hk : k = .itimer → d ≠ s.now) {n : Nat} (hn : n ≤ s.told.length) :
    Served (s.setTimer k d) d n ∨ Standing (s.setTimer k d) d := by
  unfold St.setTimer
  rw [if_neg (by simp [hi])]
  split
  · next h =>
    left
    exact served_now (s := { s with next := 0 }) hn (by dsimp only; omega)
  · right
    cases k with
    | itimer =>
      have := hk rfl
      refine ⟨?_, rfl, hi⟩
      simp only [St.arm]; rw [if_neg (by omega)]
    | posix =>
      refine ⟨?_, rfl, hi⟩
      simp only [St.arm]; rw [if_neg (by omega)]

theorem served_frame {s s' : St} {d : Int} {n : Nat} (h : s'.told = s.told) : Served s d n → Served s' d n := by
  unfold Served; rw [h]; exact id

theorem standing_tell {s : St} {d : Int} (h : Standing s d) : Standing s.tell d := h

theorem served_set (k : Kind) {s : St} {d e : Int} {n : Nat} (h : Served s d n) : Served (s.setTimer k e) d n := by
  unfold St.setTimer
  split
  · exact h
  · split
    · exact served_tell (s := { s with next := 0 }) h
    · cases k <;> exact h

/-- A timeout while the request stands or has been served. -/
theorem timeout_serves (k : Kind) {s : St} {d : Int} {late n : Nat} (hn : n ≤ s.told.length) (hd : 0 < d)
    (h : Served s d n ∨ (s.next = d ∧ s.interval = 0 ∧ (s.armed = some d ∨ d ≤ s.now)))
    (hk : k = .itimer → s.now < s.next → s.next ≠ s.now + late) :
    Served (s.timeout k late) d n ∨ Standing (s.timeout k late) d := by
  unfold St.timeout
  dsimp only
  split
  · next hc =>
    rcases h with h | ⟨h1, h2, h3⟩
    · exact .inl (served_tell (served_set k (s := { s with now := s.now + late }) h))
    · subst h1
      have hne : k = .itimer → s.next ≠ ({ s with now := s.now + late } : St).now := fun e => hk e hc.2
      rcases set_serves k (s := { s with now := s.now + late }) (d := s.next) h2 hd hne (n := n) hn with h | h
      · exact .inl (served_tell h)
      · exact .inr (standing_tell h)
  · next hc =>
    rcases h with h | ⟨h1, h2, h3⟩
    · exact .inl (served_tell h)
    · refine .inl (served_now hn ?_)
      have : ¬ (s.next ≠ 0 ∧ s.now < s.next) := hc
      rw [h1] at this
      omega

/-- In the interval timer's case: no request, made by the executive or again by an early wake-up, asks for the very moment it is made. -/
def Apart (k : Kind) : St → List Ev → Prop
  | _, [] => True
  | s, e :: es => (match e with
      | .set d => k = .itimer → d ≠ s.now
      | .fire late | .stray late => k = .itimer → s.now < s.next → s.next ≠ s.now + late
      | .pass _ => True) ∧
    match s.next? k e with
    | some s' => Apart k s' es
    | none => True

theorem run_serves (k : Kind) {d : Int} (hd : 0 < d) {n : Nat} : ∀ (es : List Ev) {s s' : St}, n ≤ s.told.length → (Served s d n ∨ Standing s d) → NoSet es →
    Apart k s es → s.run k es = some s' → Served s' d n ∨ Standing s' d := by
  intro es
  induction es with
  | nil => intro s s' _ h _ _ hr; simp only [St.run, Option.some.injEq] at hr; rw [← hr]; exact h
  | cons e es ih =>
    intro s s' hn h hs ha hr
    simp only [St.run] at hr
    obtain ⟨a1, a2⟩ := ha
    cases he : s.next? k e with
    | none => rw [he] at hr; simp at hr
    | some s1 =>
      rw [he] at hr a2
      dsimp only at hr a2
      cases e with
      | set d' => exact absurd hs id
      | pass m =>
        simp only [St.next?, Option.some.injEq] at he
        subst he
        exact ih (s := { s with now := s.now + m }) hn h hs a2 hr
      | fire late =>
        simp only [St.next?] at he
        split at he
        · next x hx =>
          split at he
          · next hle =>
            injection he with he
            subst he
            refine ih (Nat.le_trans hn (timeout_told k ({ s with armed := none } : St) late)) ?_ hs a2 hr
            refine timeout_serves k (s := { s with armed := none }) hn hd ?_ a1
            rcases h with h | ⟨h1, h2, h3⟩
            · exact .inl h
            · rw [hx] at h1; injection h1 with h1
              exact .inr ⟨h2, h3, .inr (by dsimp only; omega)⟩
          · simp at he
        · simp at he
      | stray late =>
        simp only [St.next?, Option.some.injEq] at he
        subst he
        refine ih (Nat.le_trans hn (timeout_told k s late)) ?_ hs a2 hr
        refine timeout_serves k hn hd ?_ a1
        rcases h with h | ⟨h1, h2, h3⟩
        · exact .inl h
        · exact .inr ⟨h2, h3, .inl h1⟩

/-- **C62.** Once the executive has asked to be woken at time `d`, and until it asks again, at every moment of every history either it has since been
notified at a time not before `d`, or the timer is set to go off at `d`; stray and early wake-ups do no harm.  (Interval timer: unless a request is made
for the very moment it is made.) -/
theorem c62_wakeup_partial (k : Kind) (s s₁ s₂ : St) (d : Int) (hi : s.interval = 0) (hd : 0 < d) (es : List Ev) (hn : NoSet es) (ha : Apart k s (.set d :: es))
    (h1 : s.next? k (.set d) = some s₁) (h2 : s₁.run k es = some s₂) :
    (∃ t ∈ s₂.told.take (s₂.told.length - s.told.length), d ≤ t) ∨ s₂.armed = some d := by
  simp only [St.next?, Option.some.injEq] at h1
  subst h1
  have := set_serves k hi hd ha.1 (Nat.le_refl s.told.length)
  rcases run_serves k hd es (told_grows_set k s d) this hn ha.2 h2 with h | h
  · exact .inl h
  · exact .inr h.1

/-- **C62 fails** for the interval timer at the very moment: a request for the present microsecond switches the timer off, and the executive is not
notified: not now, and not later, as long as nothing else happens. -/
theorem c62_itimer_lost (s : St) (hi : s.interval = 0) (ns : List Nat) :
    ∃ s', s.run .itimer (.set s.now :: ns.map .pass) = some s' ∧ s'.armed = none ∧ s'.told = s.told := by
  have step : ∀ (ns : List Nat) (s : St), s.armed = none → ∃ s', s.run .itimer (ns.map .pass) = some s' ∧ s'.armed = none ∧ s'.told = s.told := by
    intro ns
    induction ns with
    | nil => intro s h; exact ⟨s, rfl, h, rfl⟩
    | cons n ns ih => intro s h; exact ih { s with now := s.now + n } h
  have h := step ns (s.setTimer .itimer s.now) (by simp [St.setTimer, hi, St.arm])
  have ht : (s.setTimer .itimer s.now).told = s.told := by simp [St.setTimer, hi, St.arm]
  rw [ht] at h
  exact h

/-- A history with a stray wake-up before the deadline, for both timers. -/
example (k : Kind) : ∃ s', ({ now := 100 } : St).run k [.set 150, .pass 10, .stray 2, .pass 60, .fire 0] = some s' ∧ s'.told = [172, 112] ∧
    Apart k { now := 100 } [.set 150, .pass 10, .stray 2, .pass 60, .fire 0] := by
  cases k with
  | itimer => exact ⟨_, rfl, rfl, by simp [Apart, St.next?, St.setTimer, St.arm, St.timeout, St.tell]⟩
  | posix => exact ⟨_, rfl, rfl, by simp [Apart, St.next?, St.setTimer, St.arm, St.timeout, St.tell]⟩

/-! ## Ticks -/

/-- **C63.** In tick mode the interval timer's period is the interval asked for, in microseconds. -/
theorem c63_itimer_period (s s₁ : St) (i : Nat) (hi : i ≠ 0) (h : s.setInterval i = some s₁) : (s₁.start .itimer).every = some i := by
  unfold St.setInterval at h
  split at h
  · simp at h
  · next hs =>
    injection h with h
    subst h
    have hp : i / 1000000 * 1000000 + i % 1000000 = i := by omega
    simp only [St.start, if_neg hs, if_neg hi, hp]

/-- **C63.** The Posix timer's is, in nanoseconds, for intervals below about 4.29 seconds. -/
theorem c63_posix_period_partial (s s₁ : St) (i : Nat) (hi : i ≠ 0) (hb : 1000 * i < 2 ^ 32) (h : s.setInterval i = some s₁) :
    (s₁.start .posix).every = some (1000 * i) := by
  unfold St.setInterval at h
  split at h
  · simp at h
  · next hs =>
    injection h with h
    subst h
    simp only [St.start, if_neg hs, if_neg hi, Nat.mod_eq_of_lt hb]
    rw [if_neg (by omega)]

/-- **C63 fails** beyond: the product wraps around in 32 bits; five seconds become 0.705 seconds, and about nine minutes switch the timer off. -/
theorem c63_posix_period_wraps :
    (∃ s₁, ({} : St).setInterval 5000000 = some s₁ ∧ (s₁.start .posix).every = some 705032704) ∧
    (∃ s₁, ({} : St).setInterval (2 ^ 29) = some s₁ ∧ (s₁.start .posix).every = none) := ⟨⟨_, rfl, by decide⟩, ⟨_, rfl, by decide⟩⟩

/-- **C63 fails** for starting again: after `stop` the timebase still counts as started, so `start` does nothing and the interval cannot be changed. -/
theorem c63_restart (k : Kind) (s : St) (h : s.started = true) (i : Nat) :
    ((s.stop).start k).every = none ∧ ((s.stop).start k).armed = none ∧ (s.stop).setInterval i = none := by
  simp [St.stop, h, St.start, St.setInterval]

end Verif.Time
