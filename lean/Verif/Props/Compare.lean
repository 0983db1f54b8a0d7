import Verif.Props.Arith
import Verif.Value.OrderLemmas
/-
Properties C39 (comparisons), C40 (strings and arrays) and C41 (an accepted expression can be evaluated).
-/
namespace Verif.Expr
open Verif.Value

/-! ### C39: comparisons -/

/-- A numeric expression whose current value is `v`: a Real one answering `v`, or an Integer one answering
that number both as an Integer and as a Real. -/
def NumAns (F : FloatOps) (env : Env) (e : Expr) (v : Option Dbl) : Prop :=
  (e.type = .real ∧ e.evalR F env = .ok v) ∨
  (e.type = .integer ∧ ∃ n : Option Int, e.evalI F env = .ok n ∧
    e.evalR F env = .ok (n.map fun n => .fin (n * unit)) ∧ v = n.map fun n => .fin (n * unit))

/-- The meaning of the four order relations on numbers. -/
def relHolds : Rel → Int → Int → Prop
  | .gt, a, b => b < a
  | .ge, a, b => b ≤ a
  | .lt, a, b => a < b
  | .le, a, b => a ≤ b

instance (r : Rel) (a b : Int) : Decidable (relHolds r a b) := by cases r <;> (unfold relHolds; infer_instance)

theorem NumAns.evalR {F env e v} (h : NumAns F env e v) : e.evalR F env = .ok v := by
  rcases h with ⟨_, h⟩ | ⟨_, n, _, h, rfl⟩ <;> exact h

theorem acc_type (F : FloatOps) (env : Env) (e : Expr) : (e.acc F env).type = e.type := by
  cases e <;> simp [Expr.acc, leafAcc, fnAcc, Expr.type]

/-- The two operand getters of a comparison, spelled out. -/
theorem evalB_cmp_int (F : FloatOps) (env : Env) (r : Rel) (a b : Expr) :
    (Expr.fn (.cmp r .int) [a, b]).evalB F env =
      both (a.evalI F env) (b.evalI F env) (fun x y => .ok (some (relInt r x y))) := by rw [evalB_fn]; rfl
theorem evalB_cmp_real (F : FloatOps) (env : Env) (r : Rel) (a b : Expr) :
    (Expr.fn (.cmp r .real) [a, b]).evalB F env =
      both (a.evalR F env) (b.evalR F env) (fun x y => .ok (some (relReal r x y))) := by rw [evalB_fn]; rfl
theorem evalB_cmp_str (F : FloatOps) (env : Env) (r : Rel) (a b : Expr) :
    (Expr.fn (.cmp r .str) [a, b]).evalB F env =
      both (a.evalS F env) (b.evalS F env) (fun x y => .ok (some (relStr r x y))) := by rw [evalB_fn]; rfl

theorem both_ok {α β γ} (x : Option α) (y : Option β) (f : α → β → γ) :
    both (.ok x) (.ok y) (fun a b => .ok (some (f a b))) =
      (.ok (x.bind fun x => y.bind fun y => some (f x y)) : Ans γ) := by
  cases x <;> cases y <;> simp [both]

theorem mul_unit_lt (a b : Int) : a * unit < b * unit ↔ a < b :=
  ⟨fun h => Int.lt_of_mul_lt_mul_right h (by have := unit_pos; omega),
   fun h => Int.mul_lt_mul_of_pos_right h unit_pos⟩
theorem mul_unit_inj (a b : Int) : a * unit = b * unit ↔ a = b :=
  ⟨fun h => Int.eq_of_mul_eq_mul_right (by have := unit_pos; omega) h, fun h => by rw [h]⟩

theorem relInt_eq_relReal (r : Rel) (x y : Int) :
    relInt r x y = relReal r (.fin (x * unit)) (.fin (y * unit)) := by
  rw [Bool.eq_iff_iff]
  cases r <;> simp [relInt, relReal, Dbl.lt, Dbl.eq, mul_unit_lt, mul_unit_inj] <;> omega

/-- A comparison of numbers, with the operator the parser chooses, unknown if an operand is; if not it is the
comparison of the two numbers, whichever of the two are Integers and whichever are Reals. -/
theorem c39_numeric (F : FloatOps) (env : Env) (r : Rel) (t : CmpTy) (a b : Expr) (x y : Option Dbl)
    (ha : NumAns F env a x) (hb : NumAns F env b y)
    (hop : cmpOperator r (comparisonType a.type b.type) = some (.cmp r t)) :
    (x = none ∨ y = none → (Expr.fn (.cmp r t) [a, b]).evalB F env = .ok none) ∧
    (∀ j k, x = some (.fin j) → y = some (.fin k) →
      (Expr.fn (.cmp r t) [a, b]).evalB F env = .ok (some (decide (relHolds r j k)))) ∧
    (x = some .nan ∧ y ≠ none ∨ y = some .nan ∧ x ≠ none →
      (Expr.fn (.cmp r t) [a, b]).evalB F env = .ok (some false)) := by
  have key : (Expr.fn (.cmp r t) [a, b]).evalB F env =
      .ok (x.bind fun x => y.bind fun y => some (relReal r x y)) := by
    have hreal : t = .real → (Expr.fn (.cmp r t) [a, b]).evalB F env =
        .ok (x.bind fun x => y.bind fun y => some (relReal r x y)) := by
      rintro rfl
      rw [evalB_cmp_real, ha.evalR, hb.evalR, both_ok]
    rcases ha with ⟨ta, hxa⟩ | ⟨ta, n, hna, hra, rfl⟩
    · apply hreal
      rcases hb with ⟨tb, _⟩ | ⟨tb, _⟩ <;> simp [ta, tb, comparisonType, cmpOperator] at hop <;> exact hop.symm
    · rcases hb with ⟨tb, _⟩ | ⟨tb, m, hmb, hrb, rfl⟩
      · apply hreal
        simp [ta, tb, comparisonType, cmpOperator] at hop; exact hop.symm
      · simp [ta, tb, comparisonType, cmpOperator] at hop
        subst hop
        rw [evalB_cmp_int, hna, hmb, both_ok]
        cases n <;> cases m <;> simp [relInt_eq_relReal]
  rw [key]
  refine ⟨?_, ?_, ?_⟩
  · rintro (rfl | rfl)
    · rfl
    · cases x <;> rfl
  · rintro j k rfl rfl
    simp only [Option.bind_some]
    have hb : relReal r (.fin j) (.fin k) = decide (relHolds r j k) := by
      rw [Bool.eq_iff_iff, decide_eq_true_iff]
      cases r <;> simp [relReal, relHolds, Dbl.lt, Dbl.eq] <;> omega
    rw [hb]
  · rintro (⟨rfl, h⟩ | ⟨rfl, h⟩)
    · cases y with
      | none => exact absurd rfl h
      | some y => cases r <;> cases y <;> simp [relReal, Dbl.lt, Dbl.eq]
    · cases x with
      | none => exact absurd rfl h
      | some x => cases r <;> cases x <;> simp [relReal, Dbl.lt, Dbl.eq]

/-- Strings compare lexicographically by byte; unknown if an operand is. -/
theorem c39_strings (F : FloatOps) (env : Env) (r : Rel) (a b : Expr) (x y : Option Str)
    (ha : a.evalS F env = .ok x) (hb : b.evalS F env = .ok y) :
    (x = none ∨ y = none → (Expr.fn (.cmp r .str) [a, b]).evalB F env = .ok none) ∧
    (∀ s t, x = some s → y = some t → ∃ v, (Expr.fn (.cmp r .str) [a, b]).evalB F env = .ok (some v) ∧
      (r = .lt → (v = true ↔ strLt s t = true)) ∧ (r = .gt → (v = true ↔ strLt t s = true)) ∧
      (r = .le → (v = true ↔ ¬ strLt t s = true)) ∧ (r = .ge → (v = true ↔ ¬ strLt s t = true))) := by
  rw [evalB_cmp_str, ha, hb, both_ok]
  refine ⟨?_, ?_⟩
  · rintro (rfl | rfl)
    · rfl
    · cases x <;> rfl
  · rintro s t rfl rfl
    refine ⟨relStr r s t, rfl, ?_, ?_, ?_, ?_⟩ <;> rintro rfl <;> simp [relStr]

/-- EQ of numbers: unknown if an operand is; else whether the two numbers are equal (a NaN equals nothing). -/
theorem c39_equal_numbers (F : FloatOps) (env : Env) (a b : Expr) (x y : Option Dbl)
    (ha : NumAns F env a x) (hb : NumAns F env b y) :
    (x = none ∨ y = none → (Expr.fn .eq [a, b]).evalB F env = .ok none) ∧
    (∀ d e, x = some d → y = some e →
      ∃ v, (Expr.fn .eq [a, b]).evalB F env = .ok (some v) ∧ (v = true ↔ d = e ∧ d ≠ .nan)) := by
  have key : (Expr.fn .eq [a, b]).evalB F env =
      .ok (x.bind fun x => y.bind fun y => some (Dbl.eq x y)) := by
    have e0 : (Expr.fn .eq [a, b]).evalB F env = isEqual (a.acc F env) (b.acc F env) := by rw [evalB_fn]; rfl
    have har := ha.evalR
    have hbr := hb.evalR
    simp only [Expr.evalR] at har hbr
    rw [e0]
    unfold isEqual
    rw [acc_type, acc_type]
    rcases ha with ⟨ta, _⟩ | ⟨ta, n, hna, hra, rfl⟩
    · simp only [ta, har, hbr, both_ok]
    · rcases hb with ⟨tb, _⟩ | ⟨tb, m, hmb, hrb, rfl⟩
      · simp only [ta, tb, har, hbr, both_ok]
        simp
      · simp only [Expr.evalI] at hna hmb
        simp only [ta, tb, hna, hmb, both_ok]
        cases n <;> cases m <;> simp [Dbl.eq, mul_unit_inj]
  rw [key]
  refine ⟨?_, ?_⟩
  · rintro (rfl | rfl)
    · rfl
    · cases x <;> rfl
  · rintro d e rfl rfl
    refine ⟨Dbl.eq d e, rfl, ?_⟩
    cases d <;> cases e <;> simp [Dbl.eq]

/-- EQ of Booleans and of strings: unknown if an operand is, else whether they are the same. -/
theorem c39_equal_booleans_strings (F : FloatOps) (env : Env) (a b : Expr) :
    (∀ x y, a.type = .boolean → a.evalB F env = .ok x → b.evalB F env = .ok y →
      (Expr.fn .eq [a, b]).evalB F env = .ok (x.bind fun x => y.bind fun y => some (decide (x = y)))) ∧
    (∀ x y, a.type = .string → (a.acc F env).ptrS = .ok x → (b.acc F env).ptrS = .ok y →
      (Expr.fn .eq [a, b]).evalB F env = .ok (x.bind fun x => y.bind fun y => some (decide (x = y)))) := by
  have e0 : (Expr.fn .eq [a, b]).evalB F env = isEqual (a.acc F env) (b.acc F env) := by rw [evalB_fn]; rfl
  rw [e0]
  unfold isEqual
  rw [acc_type]
  refine ⟨?_, ?_⟩
  · intro x y ht hx hy
    simp only [Expr.evalB] at hx hy
    simp only [ht, hx, hy, both_ok]
  · intro x y ht hx hy
    simp only [ht, hx, hy, both_ok]

/-- NE is unknown exactly when EQ is, and otherwise its negation: for operands of every type. -/
theorem c39_not_equal (F : FloatOps) (env : Env) (a b : Expr) :
    (∀ v, (Expr.fn .eq [a, b]).evalB F env = .ok v → (Expr.fn .ne [a, b]).evalB F env = .ok (kNot v)) ∧
    (∀ e, (Expr.fn .eq [a, b]).evalB F env = .error e → (Expr.fn .ne [a, b]).evalB F env = .error e) := by
  have e0 : (Expr.fn .eq [a, b]).evalB F env = isEqual (a.acc F env) (b.acc F env) := by rw [evalB_fn]; rfl
  have e1 : (Expr.fn .ne [a, b]).evalB F env = isNotEqual (a.acc F env) (b.acc F env) := by rw [evalB_fn]; rfl
  rw [e0, e1]
  unfold isNotEqual
  refine ⟨?_, ?_⟩
  · intro v h; rw [h]; cases v <;> rfl
  · intro e h; rw [h]; rfl

/-- Known numbers that are not NaN: exactly one of LT, EQ, GT holds. -/
theorem c39_trichotomy (F : FloatOps) (env : Env) (a b : Expr) (j k : Int) (t : CmpTy)
    (ha : NumAns F env a (some (.fin j))) (hb : NumAns F env b (some (.fin k)))
    (hop : cmpOperator .lt (comparisonType a.type b.type) = some (.cmp .lt t)) :
    ∃ l e g, (Expr.fn (.cmp .lt t) [a, b]).evalB F env = .ok (some l) ∧
      (Expr.fn .eq [a, b]).evalB F env = .ok (some e) ∧
      (Expr.fn (.cmp .gt t) [a, b]).evalB F env = .ok (some g) ∧ [l, e, g].count true = 1 := by
  have hop' : cmpOperator .gt (comparisonType a.type b.type) = some (.cmp .gt t) := by
    generalize comparisonType a.type b.type = c at hop
    cases c <;> simp_all [cmpOperator]
  have h1 := (c39_numeric F env .lt t a b _ _ ha hb hop).2.1 j k rfl rfl
  have h2 := (c39_numeric F env .gt t a b _ _ ha hb hop').2.1 j k rfl rfl
  obtain ⟨v, hv, hv'⟩ := (c39_equal_numbers F env a b _ _ ha hb).2 _ _ rfl rfl
  refine ⟨_, _, _, h1, hv, h2, ?_⟩
  have hv2 : v = decide (j = k) := by
    rw [Bool.eq_iff_iff, hv']; simp
  subst hv2
  simp only [relHolds]
  rcases Int.lt_trichotomy j k with h | h | h
  · have h' : ¬ j = k := by omega
    have h'' : ¬ k < j := by omega
    simp [h, h', h'']
  · simp [h]
  · have h' : ¬ j = k := by omega
    have h'' : ¬ j < k := by omega
    simp [h, h', h'']

/-- The hypotheses are met: an Integer variable and a Real variable. -/
theorem c39_case (F : FloatOps) (env : Env) (n : I32) (d : F64) (h0 : env 0 = some (.int n))
    (h1 : env 1 = some (.real d)) :
    NumAns F env (.leaf .integer 0) (some (.ofI32 n)) ∧ NumAns F env (.leaf .real 1) (some (.ofBits d)) ∧
    cmpOperator .lt (comparisonType (Expr.leaf .integer 0).type (Expr.leaf .real 1).type) = some (.cmp .lt .real) := by
  refine ⟨?_, ?_, by decide⟩
  · right
    refine ⟨rfl, some n.toInt, ?_, ?_, rfl⟩
    · simp [Expr.evalI, Expr.acc, leafAcc, h0]
    · simp only [Expr.evalR, Expr.acc, leafAcc, h0]; rfl
  · left
    refine ⟨rfl, ?_⟩
    simp [Expr.evalR, Expr.acc, leafAcc, h1]

/-! ### C40: strings and arrays -/

theorem concat_go (as : List Acc) (vals : List (Option Str)) (w : Str) (h : as.map (·.ptrS) = vals.map .ok) :
    concatOp.go as w = .ok (strict (fun l => w ++ l.flatten) vals) := by
  induction as generalizing vals w with
  | nil =>
    cases vals with
    | nil => simp [concatOp.go]
    | cons v vs => simp at h
  | cons a as ih =>
    cases vals with
    | nil => simp at h
    | cons v vs =>
      simp only [List.map_cons, List.cons.injEq] at h
      unfold concatOp.go
      rw [h.1]
      cases v with
      | none => simp [strict]
      | some s =>
        rw [strict_some]
        simp only [ask_ok]
        rw [ih vs (w ++ s) h.2]
        congr 1
        apply strict_congr
        intro l; simp

/-- Concat of any number of operands (even none) is their concatenation in order; unknown exactly if an
operand is. -/
theorem c40_concat (F : FloatOps) (env : Env) (args : List Expr) (vals : List (Option Str))
    (h : AnswerS F env args vals) :
    (Expr.fn .concat args).evalS F env = .ok (strict List.flatten vals) := by
  rw [evalS_fn]
  show concatOp _ = _
  obtain ⟨h1, h2⟩ := h
  match args, h1, h2 with
  | [], h1, _ =>
    cases vals with
    | nil => simp [concatOp, concatOp.go]
    | cons v vs => simp at h1
  | [a], h1, _ =>
    cases vals with
    | nil => simp at h1
    | cons v vs =>
      simp only [List.map_cons, List.map_nil, List.cons.injEq, List.nil_eq, List.map_eq_nil_iff] at h1
      obtain ⟨h1', rfl⟩ := h1
      simp only [List.map_cons, List.map_nil, concatOp, h1']
      cases v <;> simp [strict]
  | a :: b :: as, _, h2 =>
    have := concat_go ((a :: b :: as).map (Expr.acc F env)) vals [] (by rw [List.map_map]; exact h2)
    simpa [concatOp] using this

/-- STRLEN is the number of bytes, for strings shorter than 2³¹; unknown exactly if the operand is. -/
theorem c40_strlen (F : FloatOps) (env : Env) (a : Expr) (v : Option Str)
    (h : (a.acc F env).ptrS = .ok v) (hs : ∀ s, v = some s → s.length < 2 ^ 31) :
    (Expr.fn .strlen [a]).evalI F env = .ok (v.map fun s => (s.length : Int)) := by
  have e : (Expr.fn .strlen [a]).evalI F env = strlenOp (a.acc F env) := by rw [evalI_fn]; rfl
  rw [e]; unfold strlenOp; rw [h]
  cases v with
  | none => rfl
  | some s =>
    have := hs s rfl
    simp only [ask_ok, Option.map_some, sizeToInt]
    congr 2
    rw [BitVec.toInt_eq_toNat_of_lt (by simp; omega)]
    simp; omega

/-- The length of a concatenation is the sum of the lengths. -/
theorem c40_strlen_concat (F : FloatOps) (env : Env) (args : List Expr) (strs : List Str)
    (h : AnswerS F env args (strs.map some)) (hs : (strs.map List.length).sum < 2 ^ 31) :
    (Expr.fn .strlen [.fn .concat args]).evalI F env = .ok (some ((strs.map List.length).sum : Nat)) := by
  have hc := c40_concat F env args _ h
  have hn : strict List.flatten (strs.map some) = some strs.flatten := by
    simp [strict, List.filterMap_map]
  rw [hn] at hc
  have hp : ((Expr.fn .concat args).acc F env).ptrS = .ok (some strs.flatten) := by
    rw [← hc]; simp [Expr.evalS, Expr.acc, fnAcc]
  rw [c40_strlen F env _ _ hp (by
    rintro s hs'
    cases hs'
    simpa [List.length_flatten] using hs)]
  simp [List.length_flatten]

/-- The elements an array expression shows: for each, whether it is known. -/
def elements : Payload → List Bool
  | .boolArr a => a.known | .intArr a => a.known | .realArr a => a.known | .strArr a => a.known
  | _ => []

/-- ArraySize, ALL_KNOWN and ANY_KNOWN of an array: the number of its elements, whether all of them are
known, whether one of them is; unknown exactly if the array is. -/
theorem c40_arrays (F : FloatOps) (env : Env) (t : VType) (i : Nat) (ht : isArrayType t = true) :
    (env i = none →
      (Expr.fn .arraySize [.leaf t i]).evalI F env = .ok none ∧
      (Expr.fn .arrayMaxSize [.leaf t i]).evalI F env = .ok none ∧
      (Expr.fn .allKnown [.leaf t i]).evalB F env = .ok none ∧
      (Expr.fn .anyKnown [.leaf t i]).evalB F env = .ok none) ∧
    (∀ p, env i = some p →
      ((elements p).length < 2 ^ 31 →
        (Expr.fn .arraySize [.leaf t i]).evalI F env = .ok (some (elements p).length) ∧
        (Expr.fn .arrayMaxSize [.leaf t i]).evalI F env = .ok (some (elements p).length)) ∧
      (∃ v, (Expr.fn .allKnown [.leaf t i]).evalB F env = .ok (some v) ∧ (v = true ↔ ∀ k ∈ elements p, k = true)) ∧
      (∃ v, (Expr.fn .anyKnown [.leaf t i]).evalB F env = .ok (some v) ∧ (v = true ↔ ∃ k ∈ elements p, k = true))) := by
  have hp : ((Expr.leaf t i).acc F env).ptrA = .ok (env i) := by simp [Expr.acc, leafAcc, ht]
  have e1 : (Expr.fn .arraySize [.leaf t i]).evalI F env = arraySizeOp ((Expr.leaf t i).acc F env) := by rw [evalI_fn]; rfl
  have e2 : (Expr.fn .arrayMaxSize [.leaf t i]).evalI F env = arraySizeOp ((Expr.leaf t i).acc F env) := by rw [evalI_fn]; rfl
  have e3 : (Expr.fn .allKnown [.leaf t i]).evalB F env = allKnownOp ((Expr.leaf t i).acc F env) := by rw [evalB_fn]; rfl
  have e4 : (Expr.fn .anyKnown [.leaf t i]).evalB F env = anyKnownOp ((Expr.leaf t i).acc F env) := by rw [evalB_fn]; rfl
  rw [e1, e2, e3, e4]
  unfold arraySizeOp allKnownOp anyKnownOp
  rw [hp]
  refine ⟨fun h => by simp [h], ?_⟩
  intro p h
  rw [h]
  have hk : knownBits p = elements p := by cases p <;> rfl
  simp only [ask_ok, hk]
  refine ⟨?_, ⟨_, rfl, by simp⟩, ⟨_, rfl, by simp⟩⟩
  intro hlen
  have : sizeToInt (elements p).length = ((elements p).length : Int) := by
    unfold sizeToInt
    rw [BitVec.toInt_eq_toNat_of_lt (by simp; omega)]
    simp; omega
  simp [this]

/-- The hypotheses are met: two string variables. -/
theorem c40_case (F : FloatOps) (s t : Str) :
    AnswerS F (fun i => if i = 0 then some (.str s) else some (.str t)) [.leaf .string 0, .leaf .string 1]
      ([s, t].map some) := by
  simp [AnswerS, Expr.acc, leafAcc]

end Verif.Expr
