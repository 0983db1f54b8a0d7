import Verif.Props.Expr
/-
Properties C37 (arithmetic) and C38 (conversions).
-/
namespace Verif.Expr
open Verif.Value

/-! ### Lemmas -/

@[simp] theorem strict_nil {α β} (f : List α → β) : strict f [] = some (f []) := by simp [strict]
theorem strict_none {α β} (f : List α → β) (xs : List (Option α)) : strict f (none :: xs) = none := by
  simp [strict]
theorem strict_some {α β} (f : List α → β) (x : α) (xs : List (Option α)) :
    strict f (some x :: xs) = strict (fun l => f (x :: l)) xs := by
  simp [strict]
theorem strict_congr {α β} (f g : List α → β) (xs : List (Option α)) (h : ∀ l, f l = g l) :
    strict f xs = strict g xs := by
  have : f = g := funext h
  rw [this]

/-- A loop of `int32_t` operations is the strict fold, unless an intermediate result leaves the range. -/
theorem foldArgs_ck (op : Int → Int → Int) (xs : List (Option Int)) (w : Int) :
    foldArgs (fun a b => ck (op a b)) (xs.map .ok) w = .ok (strict (fun l => l.foldl op w) xs) ∨
    (foldArgs (fun a b => ck (op a b)) (xs.map .ok) w = .error .ub ∧
      ∃ ys tl, ys ≠ [] ∧ xs = ys.map some ++ tl ∧ ¬ InI32 (ys.foldl op w)) := by
  induction xs generalizing w with
  | nil => left; simp [foldArgs]
  | cons x xs ih =>
    cases x with
    | none => left; simp [foldArgs, strict_none]
    | some x =>
      by_cases hr : InI32 (op w x)
      · have e : foldArgs (fun a b => ck (op a b)) ((some x :: xs).map .ok) w =
            foldArgs (fun a b => ck (op a b)) (xs.map .ok) (op w x) := by
          simp [foldArgs, ck, hr]
        rw [e, strict_some]
        rcases ih (op w x) with h | ⟨h, ys, tl, h1, h2, h3⟩
        · left; exact h
        · right
          exact ⟨h, x :: ys, tl, by simp, by simp [h2], by simpa using h3⟩
      · right
        refine ⟨by simp [foldArgs, ck, hr], [x], xs, by simp, by simp, by simpa using hr⟩

theorem foldl_add (l : List Int) (w : Int) : l.foldl (· + ·) w = w + l.sum := by
  induction l generalizing w with
  | nil => simp
  | cons x l ih => rw [List.foldl_cons, ih, List.sum_cons]; omega
theorem foldl_sub (l : List Int) (w : Int) : l.foldl (· - ·) w = w - l.sum := by
  induction l generalizing w with
  | nil => simp
  | cons x l ih => rw [List.foldl_cons, ih, List.sum_cons]; omega

/-! ### C37 for Integers -/

/-- The product of a list of integers. -/
def product (l : List Int) : Int := l.foldl (· * ·) 1

/-- First operand minus the others; a single operand is negated. -/
def difference : List Int → Int
  | [] => 0
  | [x] => -x
  | x :: xs => x - xs.sum

/-- Integer addition: the exact sum, unknown if an operand is; otherwise a partial sum overflowed. -/
theorem c37_add (F : FloatOps) (env : Env) (args : List Expr) (vals : List (Option Int))
    (h : AnswerI F env args vals) :
    (Expr.fn (.arith .add .int) args).evalI F env = .ok (strict List.sum vals) ∨
    ((Expr.fn (.arith .add .int) args).evalI F env = .error .ub ∧
      ∃ (ys : List Int) (tl : List (Option Int)), vals = ys.map some ++ tl ∧ ¬ InI32 ys.sum) := by
  rw [evalI_fn]
  show arithI .add _ = _ ∨ (arithI .add _ = _ ∧ _)
  rw [h.ops]
  clear h
  match vals with
  | [] => left; simp [arithI, foldArgs]
  | [x] => left; cases x <;> simp [arithI, strict]
  | [x, y] =>
    cases x with
    | none => left; simp [arithI, both, strict]
    | some x =>
      cases y with
      | none => left; simp [arithI, both, strict]
      | some y =>
        by_cases hr : InI32 (x + y)
        · left; simp [arithI, both, strict, arith2I, ck, hr]
        · right
          exact ⟨by simp [arithI, both, arith2I, ck, hr], [x, y], [], by simp, by simpa using hr⟩
  | x :: y :: z :: vals =>
    have e : arithI .add ((x :: y :: z :: vals).map .ok) =
        foldArgs (fun a b => ck (a + b)) ((x :: y :: z :: vals).map .ok) 0 := rfl
    rw [e]
    rcases foldArgs_ck (· + ·) (x :: y :: z :: vals) 0 with h | ⟨h, ys, tl, _, h2, h3⟩
    · left; rw [h]
      congr 1
      apply strict_congr
      intro l; rw [foldl_add]; omega
    · right
      refine ⟨h, ys, tl, h2, ?_⟩
      rw [foldl_add] at h3; simpa using h3

/-- In particular no overflow when every partial sum is in range. -/
theorem c37_add_in_range (F : FloatOps) (env : Env) (args : List Expr) (vals : List (Option Int))
    (h : AnswerI F env args vals) (hr : ∀ (ys : List Int) (tl : List (Option Int)), vals = ys.map some ++ tl → InI32 ys.sum) :
    (Expr.fn (.arith .add .int) args).evalI F env = .ok (strict List.sum vals) := by
  rcases c37_add F env args vals h with h | ⟨_, ys, tl, h1, h2⟩
  · exact h
  · exact absurd (hr ys tl h1) h2

/-- Integer multiplication: the exact product, unknown if an operand is; otherwise a partial product
overflowed. -/
theorem c37_mul (F : FloatOps) (env : Env) (args : List Expr) (vals : List (Option Int)) (hne : args ≠ [])
    (h : AnswerI F env args vals) :
    (Expr.fn (.arith .mul .int) args).evalI F env = .ok (strict product vals) ∨
    ((Expr.fn (.arith .mul .int) args).evalI F env = .error .ub ∧
      ∃ (ys : List Int) (tl : List (Option Int)), vals = ys.map some ++ tl ∧ ¬ InI32 (product ys)) := by
  have hl : args.length = vals.length := by have := congrArg List.length h; simpa using this
  rw [evalI_fn]
  show arithI .mul _ = _ ∨ (arithI .mul _ = _ ∧ _)
  rw [h.ops]
  clear h
  match vals with
  | [] => simp at hl; exact absurd hl hne
  | [x] => left; cases x <;> simp [arithI, strict, product]
  | [x, y] =>
    cases x with
    | none => left; simp [arithI, both, strict]
    | some x =>
      cases y with
      | none => left; simp [arithI, both, strict]
      | some y =>
        by_cases hr : InI32 (x * y)
        · left; simp [arithI, both, strict, arith2I, ck, hr, product]
        · right
          exact ⟨by simp [arithI, both, arith2I, ck, hr], [x, y], [], by simp, by simpa [product] using hr⟩
  | x :: y :: z :: vals =>
    have e : arithI .mul ((x :: y :: z :: vals).map .ok) =
        foldArgs1 (fun a b => ck (a * b)) ((x :: y :: z :: vals).map .ok) := rfl
    rw [e]
    cases x with
    | none => left; simp [foldArgs1, strict]
    | some x =>
      have e2 : foldArgs1 (fun a b => ck (a * b)) ((some x :: y :: z :: vals).map .ok) =
        foldArgs (fun a b => ck (a * b)) ((y :: z :: vals).map .ok) x := by simp [foldArgs1]
      rw [e2, strict_some]
      rcases foldArgs_ck (· * ·) (y :: z :: vals) x with h | ⟨h, ys, tl, _, h2, h3⟩
      · left; rw [h]
        congr 1
        apply strict_congr
        intro l; simp [product]
      · right
        refine ⟨h, x :: ys, tl, by simp [h2], ?_⟩
        simpa [product] using h3

/-- Integer subtraction (negation if there is one operand): exact, unknown if an operand is; otherwise a
partial difference overflowed. -/
theorem c37_sub (F : FloatOps) (env : Env) (args : List Expr) (vals : List (Option Int)) (hne : args ≠ [])
    (h : AnswerI F env args vals) :
    (Expr.fn (.arith .sub .int) args).evalI F env = .ok (strict difference vals) ∨
    ((Expr.fn (.arith .sub .int) args).evalI F env = .error .ub ∧
      ∃ (ys : List Int) (tl : List (Option Int)), vals = ys.map some ++ tl ∧ ¬ InI32 (difference ys)) := by
  have hl : args.length = vals.length := by have := congrArg List.length h; simpa using this
  rw [evalI_fn]
  show arithI .sub _ = _ ∨ (arithI .sub _ = _ ∧ _)
  rw [h.ops]
  clear h
  match vals with
  | [] => simp at hl; exact absurd hl hne
  | [x] =>
    cases x with
    | none => left; simp [arithI, strict]
    | some x =>
      by_cases hr : InI32 (-x)
      · left; simp [arithI, strict, ck, hr, difference]
      · right; exact ⟨by simp [arithI, ck, hr], [x], [], by simp, by simpa [difference] using hr⟩
  | [x, y] =>
    cases x with
    | none => left; simp [arithI, both, strict]
    | some x =>
      cases y with
      | none => left; simp [arithI, both, strict]
      | some y =>
        by_cases hr : InI32 (x - y)
        · left; simp [arithI, both, strict, arith2I, ck, hr, difference]
        · right
          exact ⟨by simp [arithI, both, arith2I, ck, hr], [x, y], [], by simp, by simpa [difference] using hr⟩
  | x :: y :: z :: vals =>
    have e : arithI .sub ((x :: y :: z :: vals).map .ok) =
        foldArgs1 (fun a b => ck (a - b)) ((x :: y :: z :: vals).map .ok) := rfl
    rw [e]
    cases x with
    | none => left; simp [foldArgs1, strict]
    | some x =>
      have e2 : foldArgs1 (fun a b => ck (a - b)) ((some x :: y :: z :: vals).map .ok) =
        foldArgs (fun a b => ck (a - b)) ((y :: z :: vals).map .ok) x := by simp [foldArgs1]
      rw [e2]
      rcases foldArgs_ck (· - ·) (y :: z :: vals) x with h | ⟨h, ys, tl, hne', h2, h3⟩
      · left; rw [h]
        cases y with
        | none => simp [strict]
        | some y =>
          rw [strict_some, strict_some, strict_some]
          congr 1
          apply strict_congr
          intro l; rw [foldl_sub]; simp [difference]
      · right
        refine ⟨h, x :: ys, tl, by simp [h2], ?_⟩
        rw [foldl_sub] at h3
        match ys, hne' with
        | w :: ys, _ => simpa [difference] using h3

/-- `m` is a least (greatest, with the order reversed) element of `l`. -/
def IsLeast (l : List Int) (m : Int) : Prop := m ∈ l ∧ ∀ x ∈ l, m ≤ x
/-- `m` is a greatest element of `l`. -/
def IsGreatest (l : List Int) (m : Int) : Prop := m ∈ l ∧ ∀ x ∈ l, x ≤ m

theorem foldl_min (l : List Int) (w : Int) :
    IsLeast (w :: l) (l.foldl (fun w x => if x < w then x else w) w) := by
  induction l generalizing w with
  | nil => simp [IsLeast]
  | cons x l ih =>
    obtain ⟨h1, h2⟩ := ih (if x < w then x else w)
    simp only [List.foldl_cons]
    refine ⟨?_, ?_⟩
    · rcases List.mem_cons.mp h1 with h | h
      · rw [h]; split <;> simp
      · exact List.mem_cons_of_mem _ (List.mem_cons_of_mem _ h)
    · have h0 := h2 _ List.mem_cons_self
      intro y hy
      simp only [List.mem_cons] at hy
      rcases hy with rfl | rfl | hy
      · exact Int.le_trans h0 (by split <;> omega)
      · exact Int.le_trans h0 (by split <;> omega)
      · exact h2 y (List.mem_cons_of_mem _ hy)

theorem foldl_max (l : List Int) (w : Int) :
    IsGreatest (w :: l) (l.foldl (fun w x => if x > w then x else w) w) := by
  induction l generalizing w with
  | nil => simp [IsGreatest]
  | cons x l ih =>
    obtain ⟨h1, h2⟩ := ih (if x > w then x else w)
    simp only [List.foldl_cons]
    refine ⟨?_, ?_⟩
    · rcases List.mem_cons.mp h1 with h | h
      · rw [h]; split <;> simp
      · exact List.mem_cons_of_mem _ (List.mem_cons_of_mem _ h)
    · have h0 := h2 _ List.mem_cons_self
      intro y hy
      simp only [List.mem_cons] at hy
      rcases hy with rfl | rfl | hy
      · exact Int.le_trans (by split <;> omega) h0
      · exact Int.le_trans (by split <;> omega) h0
      · exact h2 y (List.mem_cons_of_mem _ hy)

theorem foldArgs_total {α} (op : α → α → α) (xs : List (Option α)) (w : α) :
    foldArgs (fun a b => .ok (some (op a b))) (xs.map .ok) w = .ok (strict (fun l => l.foldl op w) xs) := by
  refine foldArgs_strict _ (fun w l => l.foldl op w) w xs rfl ?_
  intro ys y tl _
  simp

theorem foldArgs1_total {α} (op : α → α → α) (x : Option α) (xs : List (Option α)) :
    foldArgs1 (fun a b => .ok (some (op a b))) ((x :: xs).map .ok) =
      .ok (match x with | none => none | some w => strict (fun l => l.foldl op w) xs) := by
  cases x with
  | none => simp [foldArgs1]
  | some w => simpa [foldArgs1] using foldArgs_total op xs w

/-- A strict selection of one of the operands. -/
theorem strict_select {xs : List (Option Int)} {w : Int} {P : List Int → Int → Prop} {f : Int → List Int → Int}
    (hf : ∀ l, P (w :: l) (f w l)) :
    (none ∈ (some w :: xs) ∧ strict (f w) xs = none) ∨
    (∃ (l : List Int) (m : Int), some w :: xs = l.map some ∧ strict (f w) xs = some m ∧ P l m) := by
  rcases split_none xs with ⟨h1, h2⟩ | ⟨h1, _⟩
  · right
    refine ⟨w :: xs.filterMap id, _, ?_, ?_, hf (xs.filterMap id)⟩
    · rw [List.map_cons, ← h2]
    · simp [strict, h1]
  · left; exact ⟨by simp [h1], by simp [strict, h1]⟩

/-- Integer MIN: a least operand; unknown exactly if an operand is. -/
theorem c37_min (F : FloatOps) (env : Env) (args : List Expr) (vals : List (Option Int)) (hne : args ≠ [])
    (h : AnswerI F env args vals) :
    (none ∈ vals ∧ (Expr.fn (.arith .min .int) args).evalI F env = .ok none) ∨
    (∃ (l : List Int) (m : Int), vals = l.map some ∧ (Expr.fn (.arith .min .int) args).evalI F env = .ok (some m) ∧ IsLeast l m) := by
  have hl : args.length = vals.length := by have := congrArg List.length h; simpa using this
  rw [evalI_fn]
  show (_ ∧ arithI .min _ = _) ∨ (∃ _ _, _ ∧ arithI .min _ = _ ∧ _)
  rw [h.ops]
  clear h
  match vals with
  | [] => simp at hl; exact absurd hl hne
  | [x] =>
    cases x with
    | none => left; simp [arithI]
    | some x => right; exact ⟨[x], x, rfl, by simp [arithI], by simp [IsLeast]⟩
  | [x, y] =>
    cases x with
    | none => left; simp [arithI, both]
    | some x =>
      cases y with
      | none => left; simp [arithI, both]
      | some y =>
        right
        refine ⟨[x, y], if x < y then x else y, rfl, by simp [arithI, both, arith2I], ?_⟩
        by_cases hr : x < y <;> simp [IsLeast, hr] <;> omega
  | x :: y :: z :: vals =>
    have e : arithI .min ((x :: y :: z :: vals).map .ok) =
        foldArgs1 (fun w x => .ok (some (if x < w then x else w))) ((x :: y :: z :: vals).map .ok) := rfl
    rw [e, foldArgs1_total]
    cases x with
    | none => left; simp
    | some x =>
      rcases strict_select (xs := y :: z :: vals) (w := x) (P := IsLeast)
        (f := fun w l => l.foldl (fun w x => if x < w then x else w) w) (fun l => foldl_min l x) with ⟨h1, h2⟩ | ⟨l, m, h1, h2, h3⟩
      · left; exact ⟨h1, by rw [← h2]⟩
      · right; exact ⟨l, m, h1, by rw [← h2], h3⟩

/-- Integer MAX: a greatest operand; unknown exactly if an operand is. -/
theorem c37_max (F : FloatOps) (env : Env) (args : List Expr) (vals : List (Option Int)) (hne : args ≠ [])
    (h : AnswerI F env args vals) :
    (none ∈ vals ∧ (Expr.fn (.arith .max .int) args).evalI F env = .ok none) ∨
    (∃ (l : List Int) (m : Int), vals = l.map some ∧ (Expr.fn (.arith .max .int) args).evalI F env = .ok (some m) ∧ IsGreatest l m) := by
  have hl : args.length = vals.length := by have := congrArg List.length h; simpa using this
  rw [evalI_fn]
  show (_ ∧ arithI .max _ = _) ∨ (∃ _ _, _ ∧ arithI .max _ = _ ∧ _)
  rw [h.ops]
  clear h
  match vals with
  | [] => simp at hl; exact absurd hl hne
  | [x] =>
    cases x with
    | none => left; simp [arithI]
    | some x => right; exact ⟨[x], x, rfl, by simp [arithI], by simp [IsGreatest]⟩
  | [x, y] =>
    cases x with
    | none => left; simp [arithI, both]
    | some x =>
      cases y with
      | none => left; simp [arithI, both]
      | some y =>
        right
        refine ⟨[x, y], if x > y then x else y, rfl, by simp [arithI, both, arith2I], ?_⟩
        by_cases hr : x > y <;> simp [IsGreatest, hr] <;> omega
  | x :: y :: z :: vals =>
    have e : arithI .max ((x :: y :: z :: vals).map .ok) =
        foldArgs1 (fun w x => .ok (some (if x > w then x else w))) ((x :: y :: z :: vals).map .ok) := rfl
    rw [e, foldArgs1_total]
    cases x with
    | none => left; simp
    | some x =>
      rcases strict_select (xs := y :: z :: vals) (w := x) (P := IsGreatest)
        (f := fun w l => l.foldl (fun w x => if x > w then x else w) w) (fun l => foldl_max l x) with ⟨h1, h2⟩ | ⟨l, m, h1, h2, h3⟩
      · left; exact ⟨h1, by rw [← h2]⟩
      · right; exact ⟨l, m, h1, by rw [← h2], h3⟩

/-- `q` and `r` are quotient and remainder of a division that truncates towards zero. -/
def IsDivision (x y q r : Int) : Prop :=
  x = q * y + r ∧ r.natAbs < y.natAbs ∧ (0 ≤ x → 0 ≤ r) ∧ (x ≤ 0 → r ≤ 0)

theorem isDivision_tdiv (x y : Int) (hy : y ≠ 0) : IsDivision x y (x.tdiv y) (x.tmod y) := by
  refine ⟨?_, ?_, ?_, ?_⟩
  · have := Int.tmod_add_mul_tdiv x y
    rw [Int.mul_comm]; omega
  · have := Int.natAbs_tmod x y
    rw [this]
    exact Nat.mod_lt _ (by omega)
  · intro h; exact Int.tmod_nonneg y h
  · intro h
    have : (-x).tmod y = -(x.tmod y) := Int.neg_tmod x y
    have h2 : 0 ≤ (-x).tmod y := Int.tmod_nonneg y (by omega)
    omega

/-- Integer division of known operands: unknown if the divisor is zero, else the quotient truncated towards
zero; the only overflow is INT_MIN / -1. -/
theorem c37_div (F : FloatOps) (env : Env) (a b : Expr) (x y : Int) (hx : InI32 x)
    (ha : a.evalI F env = .ok (some x)) (hb : b.evalI F env = .ok (some y)) :
    (y = 0 → (Expr.fn (.arith .div .int) [a, b]).evalI F env = .ok none) ∧
    (y ≠ 0 → ¬ (x = -2147483648 ∧ y = -1) →
      ∃ q r, (Expr.fn (.arith .div .int) [a, b]).evalI F env = .ok (some q) ∧ IsDivision x y q r) ∧
    (x = -2147483648 ∧ y = -1 → (Expr.fn (.arith .div .int) [a, b]).evalI F env = .error .ub) := by
  have e : (Expr.fn (.arith .div .int) [a, b]).evalI F env =
      both (a.evalI F env) (b.evalI F env) (arith2I .div) := by rw [evalI_fn]; rfl
  rw [e, ha, hb]
  simp only [both, ask_ok, arith2I]
  refine ⟨fun h => by simp [h], ?_, ?_⟩
  · intro hy hne
    have hd := isDivision_tdiv x y hy
    refine ⟨x.tdiv y, x.tmod y, ?_, hd⟩
    have hr : InI32 (x.tdiv y) := by
      have h1 : (x.tdiv y).natAbs = x.natAbs / y.natAbs := Int.natAbs_tdiv x y
      unfold InI32 at *
      rcases Nat.lt_or_ge 1 y.natAbs with hy1 | hy1
      · have : x.natAbs / y.natAbs ≤ x.natAbs / 2 := Nat.div_le_div_left hy1 (by omega)
        omega
      · have : y = 1 ∨ y = -1 := by omega
        rcases this with rfl | rfl
        · rw [Int.tdiv_one]; exact hx
        · rw [Int.tdiv_neg, Int.tdiv_one]; omega
    simp [hy, ck, hr]
  · rintro ⟨rfl, rfl⟩
    rfl

/-- Integer remainder of known operands: unknown if the divisor is zero, else the remainder belonging to
the truncated quotient; the only undefined case is INT_MIN mod -1. -/
theorem c37_mod (F : FloatOps) (env : Env) (a b : Expr) (x y : Int) (hx : InI32 x)
    (ha : a.evalI F env = .ok (some x)) (hb : b.evalI F env = .ok (some y)) :
    (y = 0 → (Expr.fn (.arith .mod .int) [a, b]).evalI F env = .ok none) ∧
    (y ≠ 0 → ¬ (x = -2147483648 ∧ y = -1) →
      ∃ q r, (Expr.fn (.arith .mod .int) [a, b]).evalI F env = .ok (some r) ∧ IsDivision x y q r) ∧
    (x = -2147483648 ∧ y = -1 → (Expr.fn (.arith .mod .int) [a, b]).evalI F env = .error .ub) := by
  have hdiv := c37_div F env a b x y hx ha hb
  have e : (Expr.fn (.arith .mod .int) [a, b]).evalI F env =
      both (a.evalI F env) (b.evalI F env) (arith2I .mod) := by rw [evalI_fn]; rfl
  have e' : (Expr.fn (.arith .div .int) [a, b]).evalI F env =
      both (a.evalI F env) (b.evalI F env) (arith2I .div) := by rw [evalI_fn]; rfl
  rw [e', ha, hb] at hdiv
  rw [e, ha, hb]
  simp only [both, ask_ok, arith2I] at hdiv ⊢
  obtain ⟨_, h2, h3⟩ := hdiv
  refine ⟨fun h => by simp [h], ?_, ?_⟩
  · intro hy hne
    obtain ⟨q, r, hq, _⟩ := h2 hy hne
    refine ⟨x.tdiv y, x.tmod y, ?_, isDivision_tdiv x y hy⟩
    simp only [hy, if_false] at hq ⊢
    unfold ck at hq
    by_cases hr : InI32 (x.tdiv y)
    · simp [hr]
    · simp [hr] at hq
  · rintro ⟨rfl, rfl⟩
    rfl

/-- DIV and MOD with an unknown operand are unknown. -/
theorem c37_div_mod_unknown (F : FloatOps) (env : Env) (a b : Expr) (x y : Option Int) (o : Arith)
    (ho : o = .div ∨ o = .mod) (ha : a.evalI F env = .ok x) (hb : b.evalI F env = .ok y)
    (hu : x = none ∨ y = none) : (Expr.fn (.arith o .int) [a, b]).evalI F env = .ok none := by
  have e : (Expr.fn (.arith o .int) [a, b]).evalI F env =
      both (a.evalI F env) (b.evalI F env) (arith2I o) := by
    rw [evalI_fn]; rcases ho with rfl | rfl <;> rfl
  rw [e, ha, hb]
  rcases hu with rfl | rfl
  · simp [both]
  · cases x <;> simp [both]

/-- Integer absolute value: exact, unknown if the operand is; the only overflow is the most negative value. -/
theorem c37_abs (F : FloatOps) (env : Env) (a : Expr) (v : Option Int) (hv : ∀ x, v = some x → InI32 x)
    (ha : a.evalI F env = .ok v) :
    (v = some (-2147483648) → (Expr.fn (.arith .abs .int) [a]).evalI F env = .error .ub) ∧
    (v ≠ some (-2147483648) → (Expr.fn (.arith .abs .int) [a]).evalI F env =
      .ok (v.map (fun x => (x.natAbs : Int)))) := by
  have e : (Expr.fn (.arith .abs .int) [a]).evalI F env =
      ask (a.evalI F env) (fun | none => .ok none | some x => if x < 0 then ck (-x) else .ok (some x)) := by
    rw [evalI_fn]; rfl
  rw [e, ha]
  constructor
  · rintro rfl; rfl
  · intro hne
    cases v with
    | none => rfl
    | some x =>
      have hx := hv x rfl
      have hx' : x ≠ -2147483648 := fun h => hne (by rw [h])
      unfold InI32 at hx
      by_cases h0 : x < 0
      · have hr : InI32 (-x) := by unfold InI32; omega
        simp only [ask_ok, h0, if_true, ck, hr, Option.map_some]
        congr 2; omega
      · simp only [ask_ok, h0, if_false, Option.map_some]
        congr 2; omega

/-- Variables holding integers, for the examples. -/
def intEnv (l : List (Option I32)) : Env := fun i => (l.getD i none).map Payload.int

/-- The hypotheses are met: three integer variables, one of them negative, whose sum is in range. -/
theorem c37_case (F : FloatOps) :
    AnswerI F (intEnv [some 7, some (-3), some 20]) [.leaf .integer 0, .leaf .integer 1, .leaf .integer 2]
      [some 7, some (-3), some 20] ∧
    (Expr.fn (.arith .add .int) [.leaf .integer 0, .leaf .integer 1, .leaf .integer 2]).evalI F
      (intEnv [some 7, some (-3), some 20]) = .ok (some 24) := by
  constructor
  · simp [AnswerI, Expr.acc, leafAcc, intEnv]
  · rw [evalI_fn]; simp [callI, arithI, foldArgs, arith2I, ck, InI32, Expr.acc, leafAcc, intEnv]

/-- The overflow cases are met too: 2147483647 + 1 is undefined behaviour. -/
theorem c37_overflow_case (F : FloatOps) :
    (Expr.fn (.arith .add .int) [.leaf .integer 0, .leaf .integer 1]).evalI F
      (intEnv [some 2147483647, some 1]) = .error .ub := by
  rw [evalI_fn]; simp [callI, arithI, both, arith2I, ck, InI32, Expr.acc, leafAcc, intEnv]

/-! ### C37 for Reals -/

/-- The operands combined from the left, starting with the first. -/
def leftFold {α} (op : α → α → α) (d : α) (l : List α) : α := l.tail.foldl op (l.headD d)

/-- Real addition: the sum formed from left to right; unknown exactly if an operand is.  (`hz`: adding
zero to a double gives that double, as in IEEE arithmetic with +0 = -0.) -/
theorem c37_real_add (F : FloatOps) (hz : ∀ x, F.add (.fin 0) x = x) (env : Env) (args : List Expr)
    (vals : List (Option Dbl)) (h : AnswerR F env args vals) :
    (Expr.fn (.arith .add .real) args).evalR F env = .ok (strict (leftFold F.add (.fin 0)) vals) := by
  rw [evalR_fn]
  show arithR F .add _ = _
  rw [h.ops]
  clear h
  match vals with
  | [] => simp [arithR, foldArgs, leftFold]
  | [x] => cases x <;> simp [arithR, strict, leftFold]
  | [x, y] => cases x <;> cases y <;> simp [arithR, both, arith2R, strict, leftFold]
  | x :: y :: z :: vals =>
    have e : arithR F .add ((x :: y :: z :: vals).map .ok) =
        foldArgs (fun a b => .ok (some (F.add a b))) ((x :: y :: z :: vals).map .ok) (.fin 0) := rfl
    rw [e, foldArgs_total]
    congr 1
    apply strict_congr
    intro l
    cases l <;> simp [leftFold, hz]

/-- Real multiplication: the product formed from left to right; unknown exactly if an operand is. -/
theorem c37_real_mul (F : FloatOps) (env : Env) (args : List Expr) (hne : args ≠ [])
    (vals : List (Option Dbl)) (h : AnswerR F env args vals) (d : Dbl) :
    (Expr.fn (.arith .mul .real) args).evalR F env = .ok (strict (leftFold F.mul d) vals) := by
  have hl : args.length = vals.length := by have := congrArg List.length h; simpa using this
  rw [evalR_fn]
  show arithR F .mul _ = _
  rw [h.ops]
  clear h
  match vals with
  | [] => simp at hl; exact absurd hl hne
  | [x] => cases x <;> simp [arithR, strict, leftFold]
  | [x, y] => cases x <;> cases y <;> simp [arithR, both, arith2R, strict, leftFold]
  | x :: y :: z :: vals =>
    have e : arithR F .mul ((x :: y :: z :: vals).map .ok) =
        foldArgs1 (fun a b => .ok (some (F.mul a b))) ((x :: y :: z :: vals).map .ok) := rfl
    rw [e, foldArgs1_total]
    cases x with
    | none => simp [strict]
    | some x => rw [strict_some]; simp [leftFold]

/-- Real subtraction with two or more operands: formed from left to right; unknown exactly if an operand is.
One operand is negated. -/
theorem c37_real_sub (F : FloatOps) (env : Env) (args : List Expr)
    (vals : List (Option Dbl)) (h : AnswerR F env args vals) (d : Dbl) :
    (2 ≤ args.length →
      (Expr.fn (.arith .sub .real) args).evalR F env = .ok (strict (leftFold F.sub d) vals)) ∧
    (∀ v, vals = [v] → (Expr.fn (.arith .sub .real) args).evalR F env = .ok (v.map Dbl.neg)) := by
  have hl : args.length = vals.length := by have := congrArg List.length h; simpa using this
  rw [hl, evalR_fn]
  show (_ → arithR F .sub _ = _) ∧ (∀ v, _ → arithR F .sub _ = _)
  rw [h.ops]
  clear h
  refine ⟨?_, ?_⟩
  · intro h2
    match vals, h2 with
    | [x, y], _ => cases x <;> cases y <;> simp [arithR, both, arith2R, strict, leftFold]
    | x :: y :: z :: vals, _ =>
      have e : arithR F .sub ((x :: y :: z :: vals).map .ok) =
          foldArgs1 (fun a b => .ok (some (F.sub a b))) ((x :: y :: z :: vals).map .ok) := rfl
      rw [e, foldArgs1_total]
      cases x with
      | none => simp [strict]
      | some x => rw [strict_some]; simp [leftFold]
    | [], h2 => simp at h2
    | [_], h2 => simp at h2
  · rintro v rfl
    cases v <;> simp [arithR]

/-- Real division and remainder: unknown exactly if an operand is unknown or the divisor is zero. -/
theorem c37_real_div_mod (F : FloatOps) (env : Env) (a b : Expr) (x y : Option Dbl) (o : Arith)
    (ho : o = .div ∨ o = .mod) (ha : a.evalR F env = .ok x) (hb : b.evalR F env = .ok y) :
    (Expr.fn (.arith o .real) [a, b]).evalR F env =
      .ok (x.bind fun x => y.bind fun y =>
        if y = .fin 0 then none else some (if o = .div then F.div x y else F.fmod x y)) := by
  have e : (Expr.fn (.arith o .real) [a, b]).evalR F env =
      both (a.evalR F env) (b.evalR F env) (arith2R F o) := by
    rw [evalR_fn]; rcases ho with rfl | rfl <;> rfl
  rw [e, ha, hb]
  cases x with
  | none => simp [both]
  | some x =>
    cases y with
    | none => simp [both]
    | some y =>
      have hz : Dbl.eq y (.fin 0) = true ↔ y = .fin 0 := by
        cases y <;> simp [Dbl.eq]
      by_cases h0 : y = .fin 0
      · rcases ho with rfl | rfl <;> simp [both, arith2R, h0, Dbl.eq]
      · have h0' : Dbl.eq y (.fin 0) = false := by
          cases hh : Dbl.eq y (.fin 0)
          · rfl
          · exact absurd (hz.mp hh) h0
        rcases ho with rfl | rfl <;> simp [both, arith2R, h0, h0']

/-- The comparison a Real minimum and maximum use, on numbers. -/
theorem dbl_lt_trans {a b c : Dbl} (h1 : Dbl.lt a b = true) (h2 : Dbl.lt b c = true) : Dbl.lt a c = true := by
  cases a <;> cases b <;> cases c <;> simp_all [Dbl.lt]; omega

theorem dbl_lt_negtrans {a b c : Dbl} (hb : b ≠ .nan) (h1 : Dbl.lt a b = false) (h2 : Dbl.lt b c = false) :
    Dbl.lt a c = false := by
  cases a <;> cases b <;> cases c <;> simp_all [Dbl.lt]; omega

/-- `m` is one of `l` and none is less. -/
def IsLeastR (l : List Dbl) (m : Dbl) : Prop := m ∈ l ∧ ∀ x ∈ l, Dbl.lt x m = false
/-- `m` is one of `l` and none is greater. -/
def IsGreatestR (l : List Dbl) (m : Dbl) : Prop := m ∈ l ∧ ∀ x ∈ l, Dbl.lt m x = false

theorem dbl_irrefl (a : Dbl) : Dbl.lt a a = false := by cases a <;> simp [Dbl.lt]
theorem dbl_asymm {a b : Dbl} (h : Dbl.lt a b = true) : Dbl.lt b a = false := by
  cases a <;> cases b <;> simp_all [Dbl.lt]; omega

theorem foldl_minR (l : List Dbl) (w : Dbl) (hn : .nan ∉ w :: l) :
    IsLeastR (w :: l) (l.foldl (fun w x => if Dbl.lt x w then x else w) w) := by
  induction l generalizing w with
  | nil => simp [IsLeastR, dbl_irrefl]
  | cons x l ih =>
    have hw : w ≠ .nan := fun h => hn (by simp [h])
    have hx : x ≠ .nan := fun h => hn (by simp [h])
    have hm : (if Dbl.lt x w then x else w) ≠ .nan := by split <;> assumption
    obtain ⟨h1, h2⟩ := ih (if Dbl.lt x w then x else w) (by
      intro h; rcases List.mem_cons.mp h with h | h
      · exact hm h.symm
      · exact hn (by simp [h]))
    simp only [List.foldl_cons]
    refine ⟨?_, ?_⟩
    · rcases List.mem_cons.mp h1 with h | h
      · rw [h]; split <;> simp
      · exact List.mem_cons_of_mem _ (List.mem_cons_of_mem _ h)
    · have h0 := h2 _ List.mem_cons_self
      intro y hy
      simp only [List.mem_cons] at hy
      rcases hy with rfl | rfl | hy
      · refine dbl_lt_negtrans hm ?_ h0
        split
        · next h => exact dbl_asymm h
        · exact dbl_irrefl _
      · refine dbl_lt_negtrans hm ?_ h0
        split
        · exact dbl_irrefl _
        · next h => simpa using h
      · exact h2 y (List.mem_cons_of_mem _ hy)

theorem foldl_maxR (l : List Dbl) (w : Dbl) (hn : .nan ∉ w :: l) :
    IsGreatestR (w :: l) (l.foldl (fun w x => if Dbl.lt w x then x else w) w) := by
  induction l generalizing w with
  | nil => simp [IsGreatestR, dbl_irrefl]
  | cons x l ih =>
    have hw : w ≠ .nan := fun h => hn (by simp [h])
    have hx : x ≠ .nan := fun h => hn (by simp [h])
    have hm : (if Dbl.lt w x then x else w) ≠ .nan := by split <;> assumption
    obtain ⟨h1, h2⟩ := ih (if Dbl.lt w x then x else w) (by
      intro h; rcases List.mem_cons.mp h with h | h
      · exact hm h.symm
      · exact hn (by simp [h]))
    simp only [List.foldl_cons]
    refine ⟨?_, ?_⟩
    · rcases List.mem_cons.mp h1 with h | h
      · rw [h]; split <;> simp
      · exact List.mem_cons_of_mem _ (List.mem_cons_of_mem _ h)
    · have h0 := h2 _ List.mem_cons_self
      intro y hy
      simp only [List.mem_cons] at hy
      rcases hy with rfl | rfl | hy
      · refine dbl_lt_negtrans hm h0 ?_
        split
        · next h => exact dbl_asymm h
        · exact dbl_irrefl _
      · refine dbl_lt_negtrans hm h0 ?_
        split
        · exact dbl_irrefl _
        · next h => simpa using h
      · exact h2 y (List.mem_cons_of_mem _ hy)

/-- Real MIN and MAX of operands that are not NaN: a least (greatest) operand; unknown exactly if an operand
is. -/
theorem c37_real_min_max (F : FloatOps) (env : Env) (args : List Expr) (vals : List (Option Dbl))
    (hne : args ≠ []) (h : AnswerR F env args vals) (hnan : some Dbl.nan ∉ vals) (o : Arith)
    (ho : o = .min ∨ o = .max) :
    (none ∈ vals ∧ (Expr.fn (.arith o .real) args).evalR F env = .ok none) ∨
    (∃ (l : List Dbl) (m : Dbl), vals = l.map some ∧
      (Expr.fn (.arith o .real) args).evalR F env = .ok (some m) ∧
      (o = .min → IsLeastR l m) ∧ (o = .max → IsGreatestR l m)) := by
  have hl : args.length = vals.length := by have := congrArg List.length h; simpa using this
  have e0 : (Expr.fn (.arith o .real) args).evalR F env = arithR F o (vals.map .ok) := by
    rw [evalR_fn, ← h.ops]; rfl
  rw [e0]
  clear h e0
  rcases split_none vals with ⟨h1, h2⟩ | ⟨h1, _⟩
  · right
    generalize hg : vals.filterMap id = l at h2
    subst h2
    have hn : Dbl.nan ∉ l := by simpa using hnan
    match l with
    | [] => simp at hl; exact absurd hl hne
    | [x] =>
      refine ⟨[x], x, rfl, ?_, ?_, ?_⟩
      · rcases ho with rfl | rfl <;> simp [arithR]
      · simp [IsLeastR, dbl_irrefl]
      · simp [IsGreatestR, dbl_irrefl]
    | [x, y] =>
      rcases ho with rfl | rfl
      · refine ⟨[x, y], if Dbl.lt x y then x else y, rfl, by simp [arithR, both, arith2R], ?_, by simp⟩
        intro _
        by_cases hr : Dbl.lt x y = true
        · simp [IsLeastR, hr, dbl_irrefl, dbl_asymm hr]
        · have hr' : Dbl.lt x y = false := by simpa using hr
          simp [IsLeastR, hr', dbl_irrefl]
      · refine ⟨[x, y], if Dbl.lt y x then x else y, rfl, by simp [arithR, both, arith2R], by simp, ?_⟩
        intro _
        by_cases hr : Dbl.lt y x = true
        · simp [IsGreatestR, hr, dbl_irrefl, dbl_asymm hr]
        · have hr' : Dbl.lt y x = false := by simpa using hr
          simp [IsGreatestR, hr', dbl_irrefl]
    | x :: y :: z :: l =>
      have hnone : none ∉ (y :: z :: l).map some := by simp
      have hfm : ((y :: z :: l).map some).filterMap id = y :: z :: l := by
        rw [List.filterMap_map]; simp
      rcases ho with rfl | rfl
      · refine ⟨x :: y :: z :: l, (y :: z :: l).foldl (fun w x => if Dbl.lt x w then x else w) x, rfl, ?_,
          fun _ => foldl_minR _ x hn, by simp⟩
        have e : arithR F .min (((x :: y :: z :: l).map some).map .ok) =
          foldArgs1 (fun w x => .ok (some (if Dbl.lt x w then x else w))) ((some x :: (y :: z :: l).map some).map .ok) := rfl
        rw [e, foldArgs1_total]
        simp only [strict, hnone, if_false, hfm]
      · refine ⟨x :: y :: z :: l, (y :: z :: l).foldl (fun w x => if Dbl.lt w x then x else w) x, rfl, ?_,
          by simp, fun _ => foldl_maxR _ x hn⟩
        have e : arithR F .max (((x :: y :: z :: l).map some).map .ok) =
          foldArgs1 (fun w x => .ok (some (if Dbl.lt w x then x else w))) ((some x :: (y :: z :: l).map some).map .ok) := rfl
        rw [e, foldArgs1_total]
        simp only [strict, hnone, if_false, hfm]
  · left
    refine ⟨h1, ?_⟩
    match vals, h1 with
    | [x], h1 =>
      simp at h1; subst h1
      rcases ho with rfl | rfl <;> simp [arithR]
    | [x, y], h1 =>
      simp at h1
      rcases h1 with rfl | rfl
      · rcases ho with rfl | rfl <;> simp [arithR, both]
      · rcases ho with rfl | rfl <;> cases x <;> simp [arithR, both]
    | x :: y :: z :: vals, h1 =>
      have key : ∀ op : Dbl → Dbl → Dbl,
          foldArgs1 (fun a b => .ok (some (op a b))) ((x :: y :: z :: vals).map .ok) = .ok none := by
        intro op
        rw [foldArgs1_total]
        cases x with
        | none => rfl
        | some x =>
          have : none ∈ y :: z :: vals := by simpa using h1
          simp only [strict, this, if_true]
      rcases ho with rfl | rfl
      · exact key (fun w x => if Dbl.lt x w then x else w)
      · exact key (fun w x => if Dbl.lt w x then x else w)
    | [], h1 => simp at h1

/-- Real square root: unknown exactly if the operand is unknown or negative. Real absolute value: never
negative, and the operand or its negation. -/
theorem c37_real_sqrt_abs (F : FloatOps) (env : Env) (a : Expr) (v : Option Dbl) (ha : a.evalR F env = .ok v) :
    (Expr.fn .sqrt [a]).evalR F env =
      .ok (v.bind fun x => if Dbl.lt x (.fin 0) then none else some (F.sqrt x)) ∧
    (v = none → (Expr.fn (.arith .abs .real) [a]).evalR F env = .ok none) ∧
    (∀ x, v = some x → ∃ m, (Expr.fn (.arith .abs .real) [a]).evalR F env = .ok (some m) ∧
      Dbl.lt m (.fin 0) = false ∧ (m = x ∨ m = Dbl.neg x)) := by
  have e1 : (Expr.fn .sqrt [a]).evalR F env = sqrtOp F (a.evalR F env) := by rw [evalR_fn]; rfl
  have e2 : (Expr.fn (.arith .abs .real) [a]).evalR F env = arithR F .abs [a.evalR F env] := by rw [evalR_fn]; rfl
  rw [e1, e2, ha]
  refine ⟨?_, ?_, ?_⟩
  · cases v with
    | none => rfl
    | some x => simp only [sqrtOp, ask_ok, Option.bind_some]; split <;> rfl
  · rintro rfl; rfl
  · rintro x rfl
    refine ⟨if Dbl.lt x (.fin 0) then Dbl.neg x else x, rfl, ?_, ?_⟩
    · split
      · next h => cases x <;> simp_all [Dbl.lt, Dbl.neg]; omega
      · next h => simpa using h
    · split <;> simp

/-! ### C38: conversions -/

theorem unit_pos : 0 < unit := Int.natCast_pos.mpr (Nat.two_pow_pos 1074)

theorem convInt_spec (c : Conv) (k : Int) : IsConv c k (convInt c k) := by
  have hu := unit_pos
  have fl : ∀ k : Int, k / unit * unit ≤ k ∧ k < (k / unit + 1) * unit := fun k =>
    ⟨Int.ediv_mul_le k (by omega), Int.lt_ediv_add_one_mul_self k hu⟩
  have fl2 : ∀ k : Int, k / (2 * unit) * (2 * unit) ≤ k ∧ k < (k / (2 * unit) + 1) * (2 * unit) := fun k =>
    ⟨Int.ediv_mul_le k (by omega), Int.lt_ediv_add_one_mul_self k (by omega)⟩
  have hceil : ∀ k, IsCeil k (-((-k) / unit)) := by
    intro k
    have h := fl (-k)
    rw [Int.add_mul] at h
    unfold IsCeil
    rw [Int.sub_mul, Int.neg_mul]
    omega
  cases c with
  | ceil => exact hceil k
  | floor => exact fl k
  | trunc =>
    show IsTrunc k (k.tdiv unit)
    refine ⟨?_, ?_⟩
    · intro h0
      rw [Int.tdiv_eq_ediv_of_nonneg h0]
      exact fl k
    · intro h0
      have : k.tdiv unit = -((-k) / unit) := by
        have := Int.neg_tdiv (-k) unit
        rw [Int.neg_neg] at this
        rw [this, Int.tdiv_eq_ediv_of_nonneg (by omega)]
      rw [this]
      exact hceil k
  | round =>
    show IsRound k (if 0 ≤ k then (2 * k + unit) / (2 * unit) else -((2 * (-k) + unit) / (2 * unit)))
    unfold IsRound
    split
    · next h0 =>
      have h := fl2 (2 * k + unit)
      generalize (2 * k + unit) / (2 * unit) = n at h
      rw [Int.add_mul] at h
      have e : n * (2 * unit) = 2 * (n * unit) := by rw [Int.mul_left_comm]
      rw [e] at h
      refine ⟨by omega, by omega, by omega, ?_⟩
      intro ht
      rcases Int.lt_or_eq_of_le h0 with h | h
      · exact h
      · exfalso
        subst h
        have h2 : 2 * (n * unit) = unit := by omega
        have hn : (2 * n) * unit = 1 * unit := by rw [Int.mul_assoc]; omega
        have := Int.eq_of_mul_eq_mul_right (by omega) hn
        omega
    · next h0 =>
      have h := fl2 (2 * (-k) + unit)
      generalize (2 * (-k) + unit) / (2 * unit) = n at h
      rw [Int.add_mul] at h
      have e : n * (2 * unit) = 2 * (n * unit) := by rw [Int.mul_left_comm]
      rw [e] at h
      rw [Int.neg_mul]
      refine ⟨by omega, by omega, by omega, by omega⟩

theorem realToInt_mul (n : Int) : realToInt (.fin (n * unit)) = .ok (if InI32 n then some n else none) := by
  have hu := unit_pos
  unfold realToInt
  have h1 : n * unit < -2147483648 * unit ↔ n < -2147483648 :=
    ⟨fun h => Int.lt_of_mul_lt_mul_right h (by omega), fun h => Int.mul_lt_mul_of_pos_right h hu⟩
  have h2 : n * unit > 2147483647 * unit ↔ n > 2147483647 :=
    ⟨fun h => Int.lt_of_mul_lt_mul_right h (by omega), fun h => Int.mul_lt_mul_of_pos_right h hu⟩
  simp only [h1, h2]
  have ht : (n * unit).tdiv unit = n := Int.mul_tdiv_cancel n (by omega)
  rw [ht]
  split
  · next h => rw [if_neg (by unfold InI32; omega)]
  · next h =>
    have hr : InI32 n := by unfold InI32; omega
    simp [hr]

/-- CEIL, FLOOR, TRUNC, ROUND of a finite number, used as an Integer: the required integer if it is in the
Integer range, unknown otherwise. -/
theorem c38_to_integer (F : FloatOps) (env : Env) (a : Expr) (c : Conv) (k : Int)
    (ha : a.evalR F env = .ok (some (.fin k))) :
    ∃ n, IsConv c k n ∧
      (Expr.fn (.conv c .int) [a]).evalI F env = .ok (if InI32 n then some n else none) := by
  refine ⟨convInt c k, convInt_spec c k, ?_⟩
  have e : (Expr.fn (.conv c .int) [a]).evalI F env = convIntOp c (a.evalR F env) := by rw [evalI_fn]; rfl
  rw [e, ha, ← realToInt_mul]
  simp only [convIntOp, convRealOp, ask_ok, convReal]

/-- The same used as a Real: the required integer, without limit. -/
theorem c38_to_real (F : FloatOps) (env : Env) (a : Expr) (c : Conv) (k : Int)
    (ha : a.evalR F env = .ok (some (.fin k))) :
    ∃ n, IsConv c k n ∧ (Expr.fn (.conv c .real) [a]).evalR F env = .ok (some (.fin (n * unit))) := by
  refine ⟨convInt c k, convInt_spec c k, ?_⟩
  have e : (Expr.fn (.conv c .real) [a]).evalR F env = convRealOp c (a.evalR F env) := by rw [evalR_fn]; rfl
  rw [e, ha]; rfl

/-- The required integer is unique. -/
theorem c38_unique (c : Conv) (k m n : Int) (hm : IsConv c k m) (hn : IsConv c k n) : m = n := by
  have hu := unit_pos
  have key : ∀ {a b : Int}, a * unit < (b + 1) * unit → a ≤ b := by
    intro a b h
    have := Int.lt_of_mul_lt_mul_right h (by omega)
    omega
  have hfl : ∀ {m n : Int}, IsFloor k m → IsFloor k n → m = n := by
    intro m n hm hn
    unfold IsFloor at *
    have h1 := key (a := m) (b := n) (by omega)
    have h2 := key (a := n) (b := m) (by omega)
    omega
  have hce : ∀ {m n : Int}, IsCeil k m → IsCeil k n → m = n := by
    intro m n hm hn
    unfold IsCeil at *
    rw [Int.sub_mul] at hm hn
    have h1 := key (a := m) (b := n) (by rw [Int.add_mul]; omega)
    have h2 := key (a := n) (b := m) (by rw [Int.add_mul]; omega)
    omega
  cases c with
  | ceil => exact hce hm hn
  | floor => exact hfl hm hn
  | trunc =>
    rcases Int.lt_or_le k 0 with h | h
    · exact hce (hm.2 h) (hn.2 h)
    · exact hfl (hm.1 h) (hn.1 h)
  | round =>
    have hm : IsRound k m := hm
    have hn : IsRound k n := hn
    unfold IsRound at hm hn
    -- two different nearest integers are one apart and both tie
    rcases Int.lt_trichotomy m n with h | h | h
    · exfalso
      have h1 : (m + 1) * unit ≤ n * unit := Int.mul_le_mul_of_nonneg_right (by omega) (by omega)
      rw [Int.add_mul] at h1
      omega
    · exact h
    · exfalso
      have h1 : (n + 1) * unit ≤ m * unit := Int.mul_le_mul_of_nonneg_right (by omega) (by omega)
      rw [Int.add_mul] at h1
      omega

/-- REAL_TO_INT of a finite number: that integer if the number is an integer in range, unknown otherwise. -/
theorem c38_real_to_int (F : FloatOps) (env : Env) (a : Expr) (k : Int)
    (ha : a.evalR F env = .ok (some (.fin k))) :
    (∀ n, k = n * unit → InI32 n → (Expr.fn .realToInt [a]).evalI F env = .ok (some n)) ∧
    ((¬ ∃ n, k = n * unit ∧ InI32 n) → (Expr.fn .realToInt [a]).evalI F env = .ok none) := by
  have e : (Expr.fn .realToInt [a]).evalI F env = realToIntOp (a.evalR F env) := by rw [evalI_fn]; rfl
  rw [e, ha]
  simp only [realToIntOp, ask_ok]
  refine ⟨?_, ?_⟩
  · rintro n rfl hr
    rw [realToInt_mul, if_pos hr]
  · intro hno
    unfold realToInt
    simp only
    split
    · rfl
    · split
      · rfl
      · next h1 h2 =>
        exfalso
        have hk : k = k.tdiv unit * unit := by omega
        have := realToInt_mul (k.tdiv unit)
        apply hno
        refine ⟨k.tdiv unit, hk, ?_⟩
        have hu := unit_pos
        rw [hk] at h1
        have g1 : ¬ k.tdiv unit < -2147483648 := fun h => h1 (Or.inl (Int.mul_lt_mul_of_pos_right h hu))
        have g2 : ¬ k.tdiv unit > 2147483647 := fun h => h1 (Or.inr (Int.mul_lt_mul_of_pos_right h hu))
        unfold InI32; omega

/-- Conversions of an unknown or infinite operand to Integer are unknown; of a NaN, undefined behaviour. -/
theorem c38_special (F : FloatOps) (env : Env) (a : Expr) (op : Op) (ho : op = .realToInt ∨ ∃ c, op = .conv c .int) :
    (a.evalR F env = .ok none → (Expr.fn op [a]).evalI F env = .ok none) ∧
    (a.evalR F env = .ok (some .pinf) → (Expr.fn op [a]).evalI F env = .ok none) ∧
    (a.evalR F env = .ok (some .ninf) → (Expr.fn op [a]).evalI F env = .ok none) ∧
    (a.evalR F env = .ok (some .nan) → (Expr.fn op [a]).evalI F env = .error .ub) := by
  rcases ho with rfl | ⟨c, rfl⟩
  · have e : (Expr.fn .realToInt [a]).evalI F env = realToIntOp (a.evalR F env) := by rw [evalI_fn]; rfl
    rw [e]
    refine ⟨?_, ?_, ?_, ?_⟩ <;> intro h <;> rw [h] <;> rfl
  · have e : (Expr.fn (.conv c .int) [a]).evalI F env = convIntOp c (a.evalR F env) := by rw [evalI_fn]; rfl
    rw [e]
    refine ⟨?_, ?_, ?_, ?_⟩ <;> intro h <;> rw [h] <;> rfl

/-- Converting an Integer expression to Real and back gives that Integer. -/
theorem c38_roundtrip (F : FloatOps) (env : Env) (i : Nat) (n : I32) (h : env i = some (.int n)) :
    (Expr.fn .realToInt [.leaf .integer i]).evalI F env = .ok (some n.toInt) := by
  have ha : (Expr.leaf .integer i).evalR F env = .ok (some (.fin (n.toInt * unit))) := by
    simp only [Expr.evalR, Expr.acc, leafAcc, h]
    rfl
  refine (c38_real_to_int F env _ _ ha).1 n.toInt rfl ?_
  have h1 := BitVec.two_mul_toInt_lt (x := n)
  have h2 := BitVec.le_two_mul_toInt (x := n)
  unfold InI32; omega

end Verif.Expr
