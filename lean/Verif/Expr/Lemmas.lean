import Verif.Expr.Spec
namespace Verif.Expr
open Verif.Value

@[simp] theorem ask_ok {α β} (x : α) (k : α → Except Err β) : ask (.ok x) k = k x := rfl
@[simp] theorem ask_error {α β} (e : Err) (k : α → Except Err β) : ask (.error e) k = .error e := rfl

theorem accs_eq (F : FloatOps) (env : Env) (es : List Expr) : Expr.accs F env es = es.map (Expr.acc F env) := by
  induction es with
  | nil => simp [Expr.accs]
  | cons e es ih => simp [Expr.accs, ih]

/-! ### Boolean loops -/

theorem andLoop_spec (xs : List (Option Bool)) (k : Bool) :
    andLoop (xs.map .ok) k =
      .ok (if some false ∈ xs then some false else if none ∈ xs ∨ k = false then none else some true) := by
  induction xs generalizing k with
  | nil => cases k <;> simp [andLoop]
  | cons x xs ih =>
    rcases x with _ | x
    · simp [andLoop, ih]
    · cases x <;> simp [andLoop, ih]

theorem andOp_spec (xs : List (Option Bool)) : andOp (xs.map .ok) = .ok (kAnd xs) := by
  match xs with
  | [] => simp [andOp, andLoop, kAnd]
  | [x] => rcases x with _ | x <;> (try cases x) <;> simp [andOp, kAnd]
  | [x, y] =>
    rcases x with _ | x <;> rcases y with _ | y <;> (try cases x) <;> (try cases y) <;>
      simp [andOp, and2, kAnd]
  | x :: y :: z :: xs =>
    show andLoop _ true = _
    have := andLoop_spec (x :: y :: z :: xs) true
    simp only [List.map_cons] at this ⊢
    rw [this]
    unfold kAnd
    simp

theorem orLoop_spec (xs : List (Option Bool)) (k : Bool) :
    orLoop (xs.map .ok) k =
      .ok (if some true ∈ xs then some true else if some false ∈ xs ∨ k = true then some false else none) := by
  induction xs generalizing k with
  | nil => cases k <;> simp [orLoop]
  | cons x xs ih =>
    rcases x with _ | x
    · simp [orLoop, ih]
    · cases x <;> simp [orLoop, ih]

theorem orOp_small (xs : List (Option Bool)) (h : xs.length = 1 ∨ xs.length = 2) :
    orOp (xs.map .ok) = .ok (kOr xs) := by
  match xs, h with
  | [x], _ => rcases x with _ | x <;> (try cases x) <;> simp [orOp, kOr]
  | [x, y], _ =>
    rcases x with _ | x <;> rcases y with _ | y <;> (try cases x) <;> (try cases y) <;>
      simp [orOp, or2, kOr]
  | [], h => simp at h
  | _ :: _ :: _ :: _, h => simp at h

theorem orOp_big (xs : List (Option Bool)) (h1 : xs.length ≠ 1) (h2 : xs.length ≠ 2) :
    orOp (xs.map .ok) = .ok (if some true ∈ xs then some true else if some false ∈ xs then some false else none) := by
  match xs, h1, h2 with
  | [], _, _ => simp [orOp, orLoop]
  | [_], h1, _ => simp at h1
  | [_, _], _, h2 => simp at h2
  | x :: y :: z :: xs, _, _ =>
    show orLoop _ false = _
    have := orLoop_spec (x :: y :: z :: xs) false
    simp only [List.map_cons] at this ⊢
    rw [this]
    simp

/-! ### Folds -/

theorem foldArgs_none {α} (f : α → α → Ans α) (xs : List (Option α)) (w : α) (ys : List α) (tl0 : List (Option α))
    (hn : xs = ys.map some ++ none :: tl0) (g : α → List α → α)
    (hg : ∀ ys' y ys'', ys = ys' ++ y :: ys'' → f (g w ys') y = .ok (some (g w (ys' ++ [y])))) (hw : g w [] = w) :
    foldArgs f (xs.map .ok) w = .ok none := by
  have key : ∀ (rest : List α) (done : List α) (tl : List (Option α)), ys = done ++ rest →
      foldArgs f ((rest.map some ++ none :: tl).map .ok) (g w done) = .ok none := by
    intro rest
    induction rest with
    | nil => intro done tl _; simp [foldArgs]
    | cons y rest ih =>
      intro done tl h
      have := hg done y rest h
      simp only [List.map_cons, List.cons_append, foldArgs, ask_ok, this]
      exact ih (done ++ [y]) tl (by simp [h])
  rw [hn]
  have := key ys [] tl0 rfl
  rw [hw] at this
  exact this

theorem foldArgs_some {α} (f : α → α → Ans α) (w : α) (ys : List α) (g : α → List α → α)
    (hg : ∀ ys' y ys'', ys = ys' ++ y :: ys'' → f (g w ys') y = .ok (some (g w (ys' ++ [y])))) (hw : g w [] = w) :
    foldArgs f ((ys.map some).map .ok) w = .ok (some (g w ys)) := by
  have key : ∀ (rest : List α) (done : List α), ys = done ++ rest →
      foldArgs f ((rest.map some).map .ok) (g w done) = .ok (some (g w ys)) := by
    intro rest
    induction rest with
    | nil => intro done h; simp at h; simp [foldArgs, h]
    | cons y rest ih =>
      intro done h
      have := hg done y rest h
      simp only [List.map_cons, foldArgs, ask_ok, this]
      exact ih (done ++ [y]) (by simp [h])
  have := key ys [] rfl
  rw [hw] at this
  exact this

/-- Every list of optional values is a run of known ones, then an unknown one if there is any. -/
theorem split_none {α} (xs : List (Option α)) :
    (none ∉ xs ∧ xs = (xs.filterMap id).map some) ∨
    (none ∈ xs ∧ ∃ (ys : List α) (tl : List (Option α)), xs = ys.map some ++ none :: tl) := by
  induction xs with
  | nil => left; simp
  | cons x xs ih =>
    cases x with
    | none => right; exact ⟨by simp, [], xs, by simp⟩
    | some a =>
      rcases ih with ⟨h1, h2⟩ | ⟨h1, ys, tl, h2⟩
      · left
        refine ⟨by simp [h1], ?_⟩
        simp only [List.filterMap_cons, id, List.map_cons]
        rw [← h2]
      · right
        exact ⟨by simp [h1], a :: ys, tl, by simp [h2]⟩

/-- A fold over operands whose every step succeeds computes the strict fold. -/
theorem foldArgs_strict {α} (f : α → α → Ans α) (g : α → List α → α) (w : α) (xs : List (Option α))
    (hw : g w [] = w)
    (hg : ∀ ys y tl, xs = ys.map some ++ some y :: tl → f (g w ys) y = .ok (some (g w (ys ++ [y])))) :
    foldArgs f (xs.map .ok) w = .ok (strict (g w) xs) := by
  rcases split_none xs with ⟨h1, h2⟩ | ⟨h1, ys, tl, h2⟩
  · unfold strict
    rw [if_neg h1]
    conv => lhs; rw [h2]
    refine foldArgs_some f w _ g ?_ hw
    intro ys' y ys'' h
    refine hg ys' y (ys''.map some) ?_
    rw [h2, h]; simp
  · unfold strict
    rw [if_pos h1]
    refine foldArgs_none f xs w ys tl h2 g ?_ hw
    · intro ys' y ys'' h
      refine hg ys' y (ys''.map some ++ none :: tl) ?_
      rw [h2, h]; simp

theorem foldArgs1_strict {α} (f : α → α → Ans α) (g : α → List α → α) (x : Option α) (xs : List (Option α))
    (hw : ∀ w, g w [] = w)
    (hg : ∀ w ys y tl, x :: xs = some w :: (ys.map some ++ some y :: tl) →
      f (g w ys) y = .ok (some (g w (ys ++ [y])))) (d : α) :
    foldArgs1 f ((x :: xs).map .ok) = .ok (strict (fun l => g (l.headD d) l.tail) (x :: xs)) := by
  cases x with
  | none => simp [foldArgs1, strict]
  | some w =>
    have := foldArgs_strict f g w xs (hw w) (fun ys y tl h => hg w ys y tl (by rw [h]))
    simp only [List.map_cons, foldArgs1, ask_ok, this]
    unfold strict
    simp

end Verif.Expr
