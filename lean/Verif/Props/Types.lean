import Verif.Props.Compare
/-
Property C41: an expression the parser has accepted can be evaluated: no getter matching its type ends in a
plan error, whatever the values of the variables.
-/
namespace Verif.Expr
open Verif.Value

/-- The call did not end in a plan error (`reportPlanError`, an exception or an abort). -/
def NoAbort {α} (x : Except Err α) : Prop := x ≠ .error .abort

/-- An expression of type `t` answers `isKnown()` and the getter(s) of its own type without a plan error. -/
def Answers (t : VType) (a : Acc) : Prop :=
  NoAbort a.isKnown ∧
  match t with
  | .boolean => NoAbort a.getB
  | .integer => NoAbort a.getI
  | .real => NoAbort a.getR
  | .string => NoAbort a.getS ∧ NoAbort a.ptrS
  | .booleanArray | .integerArray | .realArray | .stringArray => NoAbort a.ptrA
  | .nodeState | .outcome | .failure | .commandHandle => NoAbort (a.getN t)
  | .unknownT | .date | .duration | .stateT => False

/-- A call of STRLEN, ArraySize or ArrayMaxSize. -/
def isSize : Expr → Bool
  | .fn .strlen _ | .fn .arraySize _ | .fn .arrayMaxSize _ => true
  | _ => false

/-- Does the operator ask its operands for Reals? -/
def wantsReal (op : Op) (args : List Expr) : Bool :=
  match op with
  | .arith _ .real | .cmp _ .real | .conv _ _ | .realToInt | .sqrt => true
  | .eq | .ne => args.any (fun a => a.type == .real)
  | _ => false

/-- Is it a division? -/
def isDiv : Op → Bool
  | .arith .div _ => true
  | _ => false

mutual
/-- The three exceptions are absent: every variable has a definite type, every DIV has two operands, and
no STRLEN / ArraySize / ArrayMaxSize is an operand where a Real is asked for. -/
def Expr.Plain : Expr → Prop
  | .leaf t _ => t ≠ .unknownT ∧ t ≠ .date ∧ t ≠ .duration ∧ t ≠ .stateT
  | .fn op args =>
    (isDiv op = true → args.length = 2) ∧
    (wantsReal op args = true → ∀ a ∈ args, isSize a = false) ∧ Expr.Plains args
/-- The same for every expression of a list. -/
def Expr.Plains : List Expr → Prop
  | [] => True
  | e :: es => e.Plain ∧ Expr.Plains es
end

theorem Plains_mem (es : List Expr) : Expr.Plains es ↔ ∀ e ∈ es, e.Plain := by
  induction es with
  | nil => simp [Expr.Plains]
  | cons e es ih => simp [Expr.Plains, ih]

/-! ### No operator aborts on operands that answer -/

theorem noAbort_ok {α} (x : α) : NoAbort (.ok x : Except Err α) := by simp [NoAbort]
theorem noAbort_ub {α} : NoAbort (.error .ub : Except Err α) := by simp [NoAbort]
theorem noAbort_ask {α β} {a : Except Err α} {k : α → Except Err β} (h : NoAbort a) (hk : ∀ x, NoAbort (k x)) :
    NoAbort (ask a k) := by
  cases a with
  | ok x => exact hk x
  | error e =>
    simp only [ask, NoAbort] at *
    intro he; apply h
    cases he; rfl
theorem noAbort_ck (n : Int) : NoAbort (ck n) := by
  unfold ck; split <;> simp [NoAbort]
theorem noAbort_both {α β γ} {a : Ans α} {b : Ans β} {f : α → β → Except Err (Option γ)} (ha : NoAbort a)
    (hb : NoAbort b) (hf : ∀ x y, NoAbort (f x y)) : NoAbort (both a b f) := by
  unfold both
  refine noAbort_ask ha ?_
  intro x
  cases x with
  | none => exact noAbort_ok _
  | some x =>
    refine noAbort_ask hb ?_
    intro y
    cases y with
    | none => exact noAbort_ok _
    | some y => exact hf x y

theorem noAbort_knownOf {α} {a : Ans α} (h : NoAbort a) : NoAbort (knownOf a) :=
  noAbort_ask h (fun x => by cases x <;> exact noAbort_ok _)

theorem noAbort_orLoop (as : List (Ans Bool)) (k : Bool) (h : ∀ a ∈ as, NoAbort a) : NoAbort (orLoop as k) := by
  induction as generalizing k with
  | nil => unfold orLoop; split <;> exact noAbort_ok _
  | cons a as ih =>
    unfold orLoop
    refine noAbort_ask (h a (by simp)) ?_
    intro x
    have hs : ∀ a ∈ as, NoAbort a := fun a ha => h a (by simp [ha])
    rcases x with _ | x
    · exact ih _ hs
    · cases x
      · exact ih _ hs
      · exact noAbort_ok _

theorem noAbort_andLoop (as : List (Ans Bool)) (k : Bool) (h : ∀ a ∈ as, NoAbort a) : NoAbort (andLoop as k) := by
  induction as generalizing k with
  | nil => unfold andLoop; split <;> exact noAbort_ok _
  | cons a as ih =>
    unfold andLoop
    refine noAbort_ask (h a (by simp)) ?_
    intro x
    have hs : ∀ a ∈ as, NoAbort a := fun a ha => h a (by simp [ha])
    rcases x with _ | x
    · exact ih _ hs
    · cases x
      · exact noAbort_ok _
      · exact ih _ hs

theorem noAbort_orOp (as : List (Ans Bool)) (h : ∀ a ∈ as, NoAbort a) : NoAbort (orOp as) := by
  match as with
  | [a] => exact h a (by simp)
  | [a, b] =>
    refine noAbort_ask (h a (by simp)) ?_
    intro x
    rcases x with _ | x
    · refine noAbort_ask (h b (by simp)) ?_
      intro y; rcases y with _ | y <;> (try cases y) <;> exact noAbort_ok _
    · cases x
      · refine noAbort_ask (h b (by simp)) ?_
        intro y; rcases y with _ | y <;> exact noAbort_ok _
      · exact noAbort_ok _
  | [] => exact noAbort_orLoop [] _ h
  | a :: b :: c :: as => exact noAbort_orLoop _ _ h

theorem noAbort_andOp (as : List (Ans Bool)) (h : ∀ a ∈ as, NoAbort a) : NoAbort (andOp as) := by
  match as with
  | [a] => exact h a (by simp)
  | [a, b] =>
    refine noAbort_ask (h a (by simp)) ?_
    intro x
    rcases x with _ | x
    · refine noAbort_ask (h b (by simp)) ?_
      intro y; rcases y with _ | y <;> (try cases y) <;> exact noAbort_ok _
    · cases x
      · exact noAbort_ok _
      · refine noAbort_ask (h b (by simp)) ?_
        intro y; rcases y with _ | y <;> exact noAbort_ok _
  | [] => exact noAbort_andLoop [] _ h
  | a :: b :: c :: as => exact noAbort_andLoop _ _ h

theorem noAbort_xorOp (as : List (Ans Bool)) (h : ∀ a ∈ as, NoAbort a) : NoAbort (xorOp as) := by
  match as with
  | [a] => exact h a (by simp)
  | [a, b] =>
    refine noAbort_ask (h a (by simp)) ?_
    intro x
    rcases x with _ | x
    · exact noAbort_ok _
    · refine noAbort_ask (h b (by simp)) ?_
      intro y; rcases y with _ | y <;> exact noAbort_ok _
  | [] => exact noAbort_ok _
  | a :: b :: c :: as =>
    refine noAbort_ask (h a (by simp)) ?_
    intro x
    rcases x with _ | x
    · exact noAbort_ub
    · exact noAbort_ok _

theorem noAbort_foldArgs {α} (f : α → α → Ans α) (hf : ∀ x y, NoAbort (f x y)) (as : List (Ans α)) (w : α)
    (h : ∀ a ∈ as, NoAbort a) : NoAbort (foldArgs f as w) := by
  induction as generalizing w with
  | nil => exact noAbort_ok _
  | cons a as ih =>
    unfold foldArgs
    refine noAbort_ask (h a (by simp)) ?_
    intro x
    cases x with
    | none => exact noAbort_ok _
    | some x =>
      refine noAbort_ask (hf w x) ?_
      intro y
      cases y with
      | none => exact noAbort_ok _
      | some y => exact ih y (fun a ha => h a (by simp [ha]))

theorem noAbort_foldArgs1 {α} (f : α → α → Ans α) (hf : ∀ x y, NoAbort (f x y)) (as : List (Ans α))
    (h : ∀ a ∈ as, NoAbort a) : NoAbort (foldArgs1 f as) := by
  cases as with
  | nil => exact noAbort_ub
  | cons a as =>
    refine noAbort_ask (h a (by simp)) ?_
    intro x
    cases x with
    | none => exact noAbort_ok _
    | some x => exact noAbort_foldArgs f hf as x (fun a ha => h a (by simp [ha]))

theorem noAbort_arith2I (o : Arith) (ho : o ≠ .abs) (x y : Int) : NoAbort (arith2I o x y) := by
  cases o <;> simp only [arith2I]
  · exact noAbort_ck _
  · exact noAbort_ck _
  · exact noAbort_ck _
  · split
    · exact noAbort_ok _
    · exact noAbort_ck _
  · split
    · exact noAbort_ok _
    · split
      · exact noAbort_ok _
      · exact noAbort_ub
  · exact noAbort_ok _
  · exact noAbort_ok _
  · exact absurd rfl ho

theorem noAbort_arith2R (F : FloatOps) (o : Arith) (ho : o ≠ .abs) (x y : Dbl) : NoAbort (arith2R F o x y) := by
  cases o <;> simp only [arith2R] <;> (try split) <;> (try exact noAbort_ok _)
  exact absurd rfl ho

/-- How many operands an arithmetic operator can take. -/
def arityOK (o : Arith) (n : Nat) : Prop :=
  match o with
  | .abs => n = 1
  | .div | .mod => n = 2
  | _ => 1 ≤ n

theorem noAbort_arithI (o : Arith) (as : List (Ans Int)) (h : ∀ a ∈ as, NoAbort a) (hn : arityOK o as.length) :
    NoAbort (arithI o as) := by
  have hck : ∀ (op : Int → Int → Int) x y, NoAbort (ck (op x y)) := fun op x y => noAbort_ck _
  match as, hn with
  | [], hn => cases o <;> simp [arityOK] at hn
  | [a], hn =>
    have ha := h a (by simp)
    cases o <;> simp [arityOK] at hn <;> simp only [arithI] <;> (try exact ha)
    · exact noAbort_ask ha (fun x => by
        cases x with
        | none => exact noAbort_ok _
        | some x => exact noAbort_ck _)
    · refine noAbort_ask ha (fun x => ?_)
      cases x with
      | none => exact noAbort_ok _
      | some x =>
        simp only
        split
        · exact noAbort_ck _
        · exact noAbort_ok _
  | [a, b], hn =>
    have ha := h a (by simp)
    have hb := h b (by simp)
    cases o <;> simp [arityOK] at hn <;> simp only [arithI] <;>
      exact noAbort_both ha hb (noAbort_arith2I _ (by simp))
  | a :: b :: c :: as, hn =>
    cases o <;> simp [arityOK] at hn
    · exact noAbort_foldArgs _ (noAbort_arith2I .add (by simp)) _ _ h
    · exact noAbort_foldArgs1 _ (noAbort_arith2I .sub (by simp)) _ h
    · exact noAbort_foldArgs1 _ (noAbort_arith2I .mul (by simp)) _ h
    · exact noAbort_foldArgs1 _ (fun _ _ => noAbort_ok _) _ h
    · exact noAbort_foldArgs1 _ (fun _ _ => noAbort_ok _) _ h

theorem noAbort_arithR (F : FloatOps) (o : Arith) (as : List (Ans Dbl)) (h : ∀ a ∈ as, NoAbort a)
    (hn : arityOK o as.length) : NoAbort (arithR F o as) := by
  match as, hn with
  | [], hn => cases o <;> simp [arityOK] at hn
  | [a], hn =>
    have ha := h a (by simp)
    cases o <;> simp [arityOK] at hn <;> simp only [arithR] <;> (try exact ha) <;>
      exact noAbort_ask ha (fun x => by cases x <;> exact noAbort_ok _)
  | [a, b], hn =>
    have ha := h a (by simp)
    have hb := h b (by simp)
    cases o <;> simp [arityOK] at hn <;> simp only [arithR] <;>
      exact noAbort_both ha hb (noAbort_arith2R F _ (by simp))
  | a :: b :: c :: as, hn =>
    cases o <;> simp [arityOK] at hn
    · exact noAbort_foldArgs _ (noAbort_arith2R F .add (by simp)) _ _ h
    · exact noAbort_foldArgs1 _ (noAbort_arith2R F .sub (by simp)) _ h
    · exact noAbort_foldArgs1 _ (noAbort_arith2R F .mul (by simp)) _ h
    · exact noAbort_foldArgs1 _ (fun _ _ => noAbort_ok _) _ h
    · exact noAbort_foldArgs1 _ (fun _ _ => noAbort_ok _) _ h

theorem noAbort_promote {a : Ans Int} (h : NoAbort a) : NoAbort (promote a) :=
  noAbort_ask h (fun x => by cases x <;> exact noAbort_ok _)

theorem noAbort_realToInt (d : Dbl) : NoAbort (realToInt d) := by
  cases d with
  | nan => exact noAbort_ub
  | ninf => exact noAbort_ok _
  | pinf => exact noAbort_ok _
  | fin k =>
    simp only [realToInt]
    split
    · exact noAbort_ok _
    · split <;> exact noAbort_ok _

theorem noAbort_convIntOp (c : Conv) {a : Ans Dbl} (h : NoAbort a) : NoAbort (convIntOp c a) := by
  refine noAbort_ask (noAbort_ask h (fun x => by cases x <;> exact noAbort_ok _)) ?_
  intro x
  cases x with
  | none => exact noAbort_ok _
  | some x => exact noAbort_realToInt x

theorem noAbort_realToIntOp {a : Ans Dbl} (h : NoAbort a) : NoAbort (realToIntOp a) := by
  refine noAbort_ask h ?_
  intro x
  cases x with
  | none => exact noAbort_ok _
  | some x => exact noAbort_realToInt x

theorem noAbort_concat_go (as : List Acc) (w : Str) (h : ∀ a ∈ as, NoAbort a.ptrS) : NoAbort (concatOp.go as w) := by
  induction as generalizing w with
  | nil => exact noAbort_ok _
  | cons a as ih =>
    unfold concatOp.go
    refine noAbort_ask (h a (by simp)) ?_
    intro x
    cases x with
    | none => exact noAbort_ok _
    | some x => exact ih _ (fun a ha => h a (by simp [ha]))

theorem noAbort_concatOp (as : List Acc) (h : ∀ a ∈ as, NoAbort a.getS ∧ NoAbort a.ptrS) : NoAbort (concatOp as) := by
  match as with
  | [a] => exact (h a (by simp)).1
  | [] => exact noAbort_ok _
  | a :: b :: as => exact noAbort_concat_go _ _ (fun a ha => (h a ha).2)

/-! ### The invariant of accepted expressions -/

/-- What is shown of every accepted expression. -/
def Good (F : FloatOps) (env : Env) (e : Expr) : Prop :=
  Answers e.type (e.acc F env) ∧ (e.type = .integer → isSize e = false → NoAbort (e.acc F env).getR)

theorem Good.known {F env e} (h : Good F env e) : NoAbort (e.acc F env).isKnown := h.1.1
theorem Good.bool {F env e} (h : Good F env e) (t : e.type = .boolean) : NoAbort (e.acc F env).getB := by
  have := h.1.2; rw [t] at this; exact this
theorem Good.int {F env e} (h : Good F env e) (t : e.type = .integer) : NoAbort (e.acc F env).getI := by
  have := h.1.2; rw [t] at this; exact this
theorem Good.str {F env e} (h : Good F env e) (t : e.type = .string) :
    NoAbort (e.acc F env).getS ∧ NoAbort (e.acc F env).ptrS := by
  have := h.1.2; rw [t] at this; exact this
theorem Good.arr {F env e} (h : Good F env e) (t : isArrayType e.type = true) : NoAbort (e.acc F env).ptrA := by
  have h1 := h.1.2
  generalize e.type = ty at h1 t
  cases ty <;> first | exact h1 | cases t
theorem Good.real {F env e} (h : Good F env e) (t : e.type = .real ∨ e.type = .integer) (hs : isSize e = false) :
    NoAbort (e.acc F env).getR := by
  rcases t with t | t
  · have := h.1.2; rw [t] at this; exact this
  · exact h.2 t hs
theorem Good.enum {F env e} (h : Good F env e) (t : isInternalType e.type = true) :
    NoAbort ((e.acc F env).getN e.type) := by
  have h1 := h.1.2
  generalize e.type = ty at h1 t
  cases ty <;> first | exact h1 | cases t
theorem Good.definite {F env e} (h : Good F env e) :
    e.type ≠ .unknownT ∧ e.type ≠ .date ∧ e.type ≠ .duration ∧ e.type ≠ .stateT := by
  have h1 := h.1.2
  generalize e.type = ty at h1
  cases ty <;> simp_all

theorem good_leaf (F : FloatOps) (env : Env) (t : VType) (i : Nat) (h : (Expr.leaf t i).Plain) :
    Good F env (.leaf t i) := by
  simp only [Expr.Plain] at h
  refine ⟨⟨noAbort_ok _, ?_⟩, ?_⟩
  · cases t <;> simp_all [Expr.type, Expr.acc, leafAcc, NoAbort, isArrayType, isInternalType]
  · intro ht _
    simp only [Expr.type] at ht
    subst ht
    simp [Expr.acc, leafAcc, NoAbort]

/-- A function object is good if the getter of its result type does not abort (and, for Integer results,
being asked for a Real does not either). -/
theorem good_fn (F : FloatOps) (env : Env) (op : Op) (es : List Expr)
    (hB : op.type = .boolean → NoAbort (callB op (es.map (Expr.acc F env))))
    (hI : op.type = .integer → NoAbort (callI op (es.map (Expr.acc F env))))
    (hR : op.type = .real → NoAbort (callR F op (es.map (Expr.acc F env))))
    (hS : op.type = .string → NoAbort (callS op (es.map (Expr.acc F env))))
    (hP : op.type = .integer → isSize (.fn op es) = false → NoAbort (callR F op (es.map (Expr.acc F env)))) :
    Good F env (.fn op es) := by
  have hc : op.type = .boolean ∨ op.type = .integer ∨ op.type = .real ∨ op.type = .string := by
    rcases op with _|_|_|_|_|_|_|_|⟨_, _|_⟩|_|⟨_, _|_⟩|_|_|_|_|_|_|_ <;> simp [Op.type]
  refine ⟨?_, ?_⟩
  · simp only [Expr.type, Expr.acc, accs_eq, fnAcc, Answers]
    rcases hc with h | h | h | h
    · simp only [h]; exact ⟨noAbort_knownOf (hB h), hB h⟩
    · simp only [h]; exact ⟨noAbort_knownOf (hI h), hI h⟩
    · simp only [h]; exact ⟨noAbort_knownOf (hR h), hR h⟩
    · simp only [h]; exact ⟨noAbort_knownOf (hS h), hS h, hS h⟩
  · intro ht hs
    simp only [Expr.type, Expr.acc, accs_eq, fnAcc] at *
    exact hP ht hs

theorem commonLoop_integer (ts : List VType) (r : VType) (h : commonLoop ts r = .integer) :
    r ≠ .real ∧ ∀ t ∈ ts, t = .integer ∨ t = .unknownT := by
  induction ts generalizing r with
  | nil => simp [commonLoop] at h; simp [h]
  | cons t ts ih =>
    cases t <;> simp [commonLoop] at h
    case integer =>
      obtain ⟨h1, h2⟩ := ih _ h
      refine ⟨?_, by simpa using h2⟩
      intro hr; simp [hr] at h1
    case unknownT =>
      obtain ⟨h1, h2⟩ := ih _ h
      refine ⟨?_, by simpa using h2⟩
      intro hr; simp [hr] at h1
    all_goals (obtain ⟨h1, _⟩ := ih _ h; simp at h1)

theorem arithmeticCommonType_integer (ts : List VType) (d : VType)
    (h : arithmeticCommonType ts d = .integer) : ∀ t ∈ ts, t = .integer ∨ t = .unknownT := by
  cases ts with
  | nil => simp
  | cons t ts =>
    cases t <;> simp [arithmeticCommonType] at h
    case integer => have := (commonLoop_integer _ _ h).2; simpa using this
    case unknownT => have := (commonLoop_integer _ _ h).2; simpa using this
    all_goals (have := (commonLoop_integer _ _ h).1; simp at this)

theorem numOperator_some {mk : NumTy → Op} {t : VType} {op : Op} (h : numOperator mk t = some op) :
    (t = .integer ∧ op = mk .int) ∨ (t = .real ∧ op = mk .real) := by
  cases t <;> simp [numOperator] at h <;> simp [h]

theorem cmpOperator_some {r : Rel} {t : VType} {op : Op} (h : cmpOperator r t = some op) :
    (t = .integer ∧ op = .cmp r .int) ∨ (t = .real ∧ op = .cmp r .real) ∨ (t = .string ∧ op = .cmp r .str) := by
  cases t <;> simp [cmpOperator] at h <;> simp [h]

/-- The arithmetic operators. -/
theorem good_arith (F : FloatOps) (env : Env) (o : Arith) (d : VType) (es : List Expr) (op : Op)
    (hes : ∀ e ∈ es, Good F env e) (hn : arityOK o es.length)
    (ht : (es.map Expr.type).all (fun t => isNumericType t || t == .unknownT) = true)
    (hop : numOperator (Op.arith o) (arithmeticCommonType (es.map Expr.type) d) = some op)
    (hreal : wantsReal op es = true → ∀ a ∈ es, isSize a = false) : Good F env (.fn op es) := by
  have hnum : ∀ e ∈ es, e.type = .real ∨ e.type = .integer := by
    intro e he
    have h1 := List.all_eq_true.mp ht e.type (List.mem_map.mpr ⟨e, he, rfl⟩)
    have h2 := (hes e he).definite
    generalize e.type = ty at h1 h2
    cases ty <;> simp_all [isNumericType]
  rcases numOperator_some hop with ⟨hc, rfl⟩ | ⟨hc, rfl⟩
  · have hint : ∀ e ∈ es, e.type = .integer := by
      intro e he
      rcases arithmeticCommonType_integer _ _ hc e.type (List.mem_map.mpr ⟨e, he, rfl⟩) with h | h
      · exact h
      · exact absurd h (hes e he).definite.1
    have hI : NoAbort (arithI o ((es.map (Expr.acc F env)).map (·.getI))) := by
      apply noAbort_arithI
      · intro a ha
        simp only [List.map_map, List.mem_map, Function.comp] at ha
        obtain ⟨e, he, rfl⟩ := ha
        exact (hes e he).int (hint e he)
      · simpa using hn
    exact good_fn F env _ es (by simp [Op.type]) (fun _ => hI) (by simp [Op.type]) (by simp [Op.type])
      (fun _ _ => noAbort_promote hI)
  · have hs := hreal rfl
    refine good_fn F env _ es (by simp [Op.type]) (by simp [Op.type]) (fun _ => ?_) (by simp [Op.type]) (by simp [Op.type])
    show NoAbort (arithR F o ((es.map (Expr.acc F env)).map (·.getR)))
    apply noAbort_arithR
    · intro a ha
      simp only [List.map_map, List.mem_map, Function.comp] at ha
      obtain ⟨e, he, rfl⟩ := ha
      exact (hes e he).real (hnum e he) (hs e he)
    · simpa using hn

/-- The conversions. -/
theorem good_conv (F : FloatOps) (env : Env) (c : Conv) (d : VType) (e : Expr) (op : Op) (he : Good F env e)
    (ht : isNumericType e.type || e.type == .unknownT)
    (hop : numOperator (Op.conv c) (conversionReturnType e.type d) = some op)
    (hreal : wantsReal op [e] = true → isSize e = false) : Good F env (.fn op [e]) := by
  have hnum : e.type = .real ∨ e.type = .integer := by
    have h2 := he.definite
    generalize e.type = ty at ht h2
    cases ty <;> simp_all [isNumericType]
  rcases numOperator_some hop with ⟨_, rfl⟩ | ⟨_, rfl⟩
  · have hr := he.real hnum (hreal rfl)
    exact good_fn F env _ _ (by simp [Op.type]) (fun _ => noAbort_convIntOp c hr) (by simp [Op.type])
      (by simp [Op.type]) (fun _ _ => noAbort_promote (noAbort_convIntOp c hr))
  · have hr := he.real hnum (hreal rfl)
    exact good_fn F env _ _ (by simp [Op.type]) (by simp [Op.type])
      (fun _ => noAbort_ask hr (fun x => by cases x <;> exact noAbort_ok _)) (by simp [Op.type]) (by simp [Op.type])

theorem comparisonType_integer (x y : VType) (hx : x ≠ .unknownT) (hy : y ≠ .unknownT)
    (h : comparisonType x y = .integer) : x = .integer ∧ y = .integer := by
  revert h
  cases x <;> cases y <;> first | decide | contradiction
theorem comparisonType_real (x y : VType) (hx : x ≠ .unknownT ∧ x ≠ .date ∧ x ≠ .duration ∧ x ≠ .stateT)
    (hy : y ≠ .unknownT ∧ y ≠ .date ∧ y ≠ .duration ∧ y ≠ .stateT)
    (h : comparisonType x y = .real) : (x = .real ∨ x = .integer) ∧ (y = .real ∨ y = .integer) := by
  revert h hx hy
  cases x <;> cases y <;> decide
theorem comparisonType_string (x y : VType) (hx : x ≠ .unknownT) (hy : y ≠ .unknownT)
    (h : comparisonType x y = .string) : x = .string ∧ y = .string := by
  revert h
  cases x <;> cases y <;> first | decide | contradiction
theorem canBeEqual_cases (x y : VType) (hx : x ≠ .unknownT ∧ x ≠ .date ∧ x ≠ .duration ∧ x ≠ .stateT)
    (hy : y ≠ .unknownT ∧ y ≠ .date ∧ y ≠ .duration ∧ y ≠ .stateT) (h : canBeEqual x y = true) :
    x = y ∨ ((x = .real ∨ x = .integer) ∧ (y = .real ∨ y = .integer) ∧ (x = .real ∨ y = .real)) := by
  revert h hx hy
  cases x <;> cases y <;> decide

/-- The order comparisons. -/
theorem good_cmp (F : FloatOps) (env : Env) (r : Rel) (a b : Expr) (op : Op) (ha : Good F env a) (hb : Good F env b)
    (hop : cmpOperator r (comparisonType a.type b.type) = some op)
    (hreal : wantsReal op [a, b] = true → isSize a = false ∧ isSize b = false) : Good F env (.fn op [a, b]) := by
  have da := ha.definite
  have db := hb.definite
  rcases cmpOperator_some hop with ⟨hc, rfl⟩ | ⟨hc, rfl⟩ | ⟨hc, rfl⟩
  · have hab : a.type = .integer ∧ b.type = .integer := comparisonType_integer _ _ da.1 db.1 hc
    exact good_fn F env _ _ (fun _ => noAbort_both (ha.int hab.1) (hb.int hab.2) (fun _ _ => noAbort_ok _))
      (by simp [Op.type]) (by simp [Op.type]) (by simp [Op.type]) (by simp [Op.type])
  · have hab : (a.type = .real ∨ a.type = .integer) ∧ (b.type = .real ∨ b.type = .integer) := comparisonType_real _ _ da db hc
    have hs := hreal rfl
    exact good_fn F env _ _ (fun _ => noAbort_both (ha.real hab.1 hs.1) (hb.real hab.2 hs.2) (fun _ _ => noAbort_ok _))
      (by simp [Op.type]) (by simp [Op.type]) (by simp [Op.type]) (by simp [Op.type])
  · have hab : a.type = .string ∧ b.type = .string := comparisonType_string _ _ da.1 db.1 hc
    exact good_fn F env _ _ (fun _ => noAbort_both (ha.str hab.1).1 (hb.str hab.2).1 (fun _ _ => noAbort_ok _))
      (by simp [Op.type]) (by simp [Op.type]) (by simp [Op.type]) (by simp [Op.type])

theorem noAbort_isEqual (F : FloatOps) (env : Env) (a b : Expr) (ha : Good F env a) (hb : Good F env b)
    (ht : canBeEqual a.type b.type = true)
    (hreal : (a.type = .real ∨ b.type = .real) → isSize a = false ∧ isSize b = false) :
    NoAbort (isEqual (a.acc F env) (b.acc F env)) := by
  have da := ha.definite
  have db := hb.definite
  unfold isEqual
  rw [acc_type, acc_type]
  have hcase : a.type = b.type ∨ ((a.type = .real ∨ a.type = .integer) ∧ (b.type = .real ∨ b.type = .integer) ∧
      (a.type = .real ∨ b.type = .real)) := canBeEqual_cases _ _ da db ht
  rcases hcase with h | ⟨h1, h2, h3⟩
  · cases hta : a.type <;> rw [hta] at h da <;> simp only
    case unknownT => simp at da
    case date => simp at da
    case duration => simp at da
    case stateT => simp at da
    case boolean => exact noAbort_both (ha.bool hta) (hb.bool h.symm) (fun _ _ => noAbort_ok _)
    case integer =>
      simp only [← h, if_true]
      exact noAbort_both (ha.int hta) (hb.int h.symm) (fun _ _ => noAbort_ok _)
    case real =>
      have hs := hreal (Or.inl hta)
      exact noAbort_both (ha.real (Or.inl hta) hs.1) (hb.real (Or.inl h.symm) hs.2) (fun _ _ => noAbort_ok _)
    case string => exact noAbort_both (ha.str hta).2 (hb.str h.symm).2 (fun _ _ => noAbort_ok _)
    case booleanArray =>
      exact noAbort_both (ha.arr (by rw [hta]; rfl)) (hb.arr (by rw [← h]; rfl)) (fun _ _ => noAbort_ok _)
    case integerArray =>
      exact noAbort_both (ha.arr (by rw [hta]; rfl)) (hb.arr (by rw [← h]; rfl)) (fun _ _ => noAbort_ok _)
    case realArray =>
      exact noAbort_both (ha.arr (by rw [hta]; rfl)) (hb.arr (by rw [← h]; rfl)) (fun _ _ => noAbort_ok _)
    case stringArray =>
      exact noAbort_both (ha.arr (by rw [hta]; rfl)) (hb.arr (by rw [← h]; rfl)) (fun _ _ => noAbort_ok _)
    case nodeState =>
      have h1 := ha.enum (by rw [hta]; rfl)
      have h2 := hb.enum (by rw [← h]; rfl)
      rw [hta] at h1; rw [← h] at h2
      exact noAbort_both h1 h2 (fun _ _ => noAbort_ok _)
    case outcome =>
      have h1 := ha.enum (by rw [hta]; rfl)
      have h2 := hb.enum (by rw [← h]; rfl)
      rw [hta] at h1; rw [← h] at h2
      exact noAbort_both h1 h2 (fun _ _ => noAbort_ok _)
    case failure =>
      have h1 := ha.enum (by rw [hta]; rfl)
      have h2 := hb.enum (by rw [← h]; rfl)
      rw [hta] at h1; rw [← h] at h2
      exact noAbort_both h1 h2 (fun _ _ => noAbort_ok _)
    case commandHandle =>
      have h1 := ha.enum (by rw [hta]; rfl)
      have h2 := hb.enum (by rw [← h]; rfl)
      rw [hta] at h1; rw [← h] at h2
      exact noAbort_both h1 h2 (fun _ _ => noAbort_ok _)
  · have hs := hreal h3
    have hA := ha.real h1 hs.1
    have hB := hb.real h2 hs.2
    rcases h1 with h1 | h1
    · simp only [h1]; exact noAbort_both hA hB (fun _ _ => noAbort_ok _)
    · have hbt : b.type = .real := by rcases h3 with h | h
                                      · rw [h1] at h; cases h
                                      · exact h
      simp only [h1, hbt]
      exact noAbort_both hA hB (fun _ _ => noAbort_ok _)

theorem len1 {es : List Expr} (h : (es.length == 1) = true) : ∃ a, es = [a] := by
  match es, h with
  | [a], _ => exact ⟨a, rfl⟩
  | [], h => simp at h
  | _ :: _ :: _, h => simp at h
theorem len2 {es : List Expr} (h : (es.length == 2) = true) : ∃ a b, es = [a, b] := by
  match es, h with
  | [a, b], _ => exact ⟨a, b, rfl⟩
  | [], h => simp at h
  | [_], h => simp at h
  | _ :: _ :: _ :: _, h => simp at h

/-- An operator chosen by the parser for good operands gives a good expression. -/
theorem good_app (F : FloatOps) (env : Env) (n : Name) (d : VType) (es : List Expr) (op : Op)
    (hes : ∀ e ∈ es, Good F env e) (hn : n.countOK es.length = true) (ht : n.typesOK (es.map Expr.type) = true)
    (hop : n.operator (es.map Expr.type) d = some op) (hdiv : isDiv op = true → es.length = 2)
    (hreal : wantsReal op es = true → ∀ a ∈ es, isSize a = false) : Good F env (.fn op es) := by
  have hbool : allSameTypeOrUnknown .boolean (es.map Expr.type) = true → ∀ e ∈ es, NoAbort (e.acc F env).getB := by
    intro h e he
    have h1 := List.all_eq_true.mp h e.type (List.mem_map.mpr ⟨e, he, rfl⟩)
    have h2 := (hes e he).definite.1
    refine (hes e he).bool ?_
    simp at h1; rcases h1 with h | h
    · exact h
    · exact absurd h h2
  have hstr : allSameTypeOrUnknown .string (es.map Expr.type) = true →
      ∀ e ∈ es, NoAbort (e.acc F env).getS ∧ NoAbort (e.acc F env).ptrS := by
    intro h e he
    have h1 := List.all_eq_true.mp h e.type (List.mem_map.mpr ⟨e, he, rfl⟩)
    have h2 := (hes e he).definite.1
    refine (hes e he).str ?_
    simp at h1; rcases h1 with h | h
    · exact h
    · exact absurd h h2
  have hnum1 : ∀ a, es = [a] → isNumericType a.type || a.type == .unknownT → a.type = .real ∨ a.type = .integer := by
    intro a ha h
    have h2 := (hes a (by simp [ha])).definite
    generalize a.type = ty at h h2
    cases ty <;> simp_all [isNumericType]
  cases n <;> simp only [Name.operator] at hop <;> simp only [Name.typesOK] at ht <;> simp only [Name.countOK] at hn
  case ABS => exact good_arith F env .abs d es op hes (by simpa [arityOK] using hn) ht hop hreal
  case ADD => exact good_arith F env .add d es op hes (by simpa [arityOK] using hn) ht hop hreal
  case MAX => exact good_arith F env .max d es op hes (by simpa [arityOK] using hn) ht hop hreal
  case MIN => exact good_arith F env .min d es op hes (by simpa [arityOK] using hn) ht hop hreal
  case MOD => exact good_arith F env .mod d es op hes (by simpa [arityOK] using hn) ht hop hreal
  case MUL => exact good_arith F env .mul d es op hes (by simpa [arityOK] using hn) ht hop hreal
  case SUB => exact good_arith F env .sub d es op hes (by simpa [arityOK] using hn) ht hop hreal
  case DIV =>
    refine good_arith F env .div d es op hes ?_ ht hop hreal
    apply hdiv
    rcases numOperator_some hop with ⟨_, rfl⟩ | ⟨_, rfl⟩ <;> rfl
  case AND =>
    cases hop
    refine good_fn F env _ es (fun _ => noAbort_andOp _ ?_) (by simp [Op.type]) (by simp [Op.type]) (by simp [Op.type]) (by simp [Op.type])
    intro a ha
    simp only [List.map_map, List.mem_map, Function.comp] at ha
    obtain ⟨e, he, rfl⟩ := ha
    exact hbool ht e he
  case OR =>
    cases hop
    refine good_fn F env _ es (fun _ => noAbort_orOp _ ?_) (by simp [Op.type]) (by simp [Op.type]) (by simp [Op.type]) (by simp [Op.type])
    intro a ha
    simp only [List.map_map, List.mem_map, Function.comp] at ha
    obtain ⟨e, he, rfl⟩ := ha
    exact hbool ht e he
  case XOR =>
    cases hop
    refine good_fn F env _ es (fun _ => noAbort_xorOp _ ?_) (by simp [Op.type]) (by simp [Op.type]) (by simp [Op.type]) (by simp [Op.type])
    intro a ha
    simp only [List.map_map, List.mem_map, Function.comp] at ha
    obtain ⟨e, he, rfl⟩ := ha
    exact hbool ht e he
  case NOT =>
    cases hop
    obtain ⟨a, rfl⟩ := len1 hn
    exact good_fn F env _ _ (fun _ => noAbort_ask (hbool ht a (by simp)) (fun x => by cases x <;> exact noAbort_ok _))
      (by simp [Op.type]) (by simp [Op.type]) (by simp [Op.type]) (by simp [Op.type])
  case IsKnown =>
    cases hop
    obtain ⟨a, rfl⟩ := len1 hn
    refine good_fn F env _ _ (fun _ => ?_) (by simp [Op.type]) (by simp [Op.type]) (by simp [Op.type]) (by simp [Op.type])
    have hk := (hes a (by simp)).known
    simp only [List.map_cons, List.map_nil, callB]
    generalize (a.acc F env).isKnown = k at hk
    cases k with
    | ok k => exact noAbort_ok _
    | error e => cases e with
      | abort => exact absurd rfl hk
      | ub => exact noAbort_ub
  case ALL_KNOWN =>
    cases hop
    obtain ⟨a, rfl⟩ := len1 hn
    exact good_fn F env _ _ (fun _ => noAbort_ask ((hes a (by simp)).arr ht) (fun x => by cases x <;> exact noAbort_ok _))
      (by simp [Op.type]) (by simp [Op.type]) (by simp [Op.type]) (by simp [Op.type])
  case ANY_KNOWN =>
    cases hop
    obtain ⟨a, rfl⟩ := len1 hn
    exact good_fn F env _ _ (fun _ => noAbort_ask ((hes a (by simp)).arr ht) (fun x => by cases x <;> exact noAbort_ok _))
      (by simp [Op.type]) (by simp [Op.type]) (by simp [Op.type]) (by simp [Op.type])
  case ArraySize =>
    cases hop
    obtain ⟨a, rfl⟩ := len1 hn
    exact good_fn F env _ _ (by simp [Op.type])
      (fun _ => noAbort_ask ((hes a (by simp)).arr ht) (fun x => by cases x <;> exact noAbort_ok _))
      (by simp [Op.type]) (by simp [Op.type]) (by simp [isSize])
  case ArrayMaxSize =>
    cases hop
    obtain ⟨a, rfl⟩ := len1 hn
    exact good_fn F env _ _ (by simp [Op.type])
      (fun _ => noAbort_ask ((hes a (by simp)).arr ht) (fun x => by cases x <;> exact noAbort_ok _))
      (by simp [Op.type]) (by simp [Op.type]) (by simp [isSize])
  case STRLEN =>
    cases hop
    obtain ⟨a, rfl⟩ := len1 hn
    exact good_fn F env _ _ (by simp [Op.type])
      (fun _ => noAbort_ask (hstr ht a (by simp)).2 (fun x => by cases x <;> exact noAbort_ok _))
      (by simp [Op.type]) (by simp [Op.type]) (by simp [isSize])
  case Concat =>
    cases hop
    refine good_fn F env _ es (by simp [Op.type]) (by simp [Op.type]) (by simp [Op.type]) (fun _ => noAbort_concatOp _ ?_) (by simp [Op.type])
    intro a ha
    obtain ⟨e, he, rfl⟩ := List.mem_map.mp ha
    exact hstr ht e he
  case SQRT =>
    cases hop
    obtain ⟨a, rfl⟩ := len1 hn
    have hr := (hes a (by simp)).real (hnum1 a rfl ht) (hreal rfl a (by simp))
    refine good_fn F env _ _ (by simp [Op.type]) (by simp [Op.type]) (fun _ => noAbort_ask hr (fun x => ?_)) (by simp [Op.type]) (by simp [Op.type])
    cases x with
    | none => exact noAbort_ok _
    | some x => simp only; split <;> exact noAbort_ok _
  case REAL_TO_INT =>
    cases hop
    obtain ⟨a, rfl⟩ := len1 hn
    have hr := (hes a (by simp)).real (hnum1 a rfl ht) (hreal rfl a (by simp))
    exact good_fn F env _ _ (by simp [Op.type]) (fun _ => noAbort_realToIntOp hr) (by simp [Op.type]) (by simp [Op.type])
      (fun _ _ => noAbort_promote (noAbort_realToIntOp hr))
  case CEIL =>
    obtain ⟨a, rfl⟩ := len1 hn
    exact good_conv F env .ceil d a op (hes a (by simp)) ht hop (fun h => hreal h a (by simp))
  case FLOOR =>
    obtain ⟨a, rfl⟩ := len1 hn
    exact good_conv F env .floor d a op (hes a (by simp)) ht hop (fun h => hreal h a (by simp))
  case ROUND =>
    obtain ⟨a, rfl⟩ := len1 hn
    exact good_conv F env .round d a op (hes a (by simp)) ht hop (fun h => hreal h a (by simp))
  case TRUNC =>
    obtain ⟨a, rfl⟩ := len1 hn
    exact good_conv F env .trunc d a op (hes a (by simp)) ht hop (fun h => hreal h a (by simp))
  case GE =>
    obtain ⟨a, b, rfl⟩ := len2 hn
    exact good_cmp F env .ge a b op (hes a (by simp)) (hes b (by simp)) hop
      (fun h => ⟨hreal h a (by simp), hreal h b (by simp)⟩)
  case GT =>
    obtain ⟨a, b, rfl⟩ := len2 hn
    exact good_cmp F env .gt a b op (hes a (by simp)) (hes b (by simp)) hop
      (fun h => ⟨hreal h a (by simp), hreal h b (by simp)⟩)
  case LE =>
    obtain ⟨a, b, rfl⟩ := len2 hn
    exact good_cmp F env .le a b op (hes a (by simp)) (hes b (by simp)) hop
      (fun h => ⟨hreal h a (by simp), hreal h b (by simp)⟩)
  case LT =>
    obtain ⟨a, b, rfl⟩ := len2 hn
    exact good_cmp F env .lt a b op (hes a (by simp)) (hes b (by simp)) hop
      (fun h => ⟨hreal h a (by simp), hreal h b (by simp)⟩)
  case EQ =>
    cases hop
    obtain ⟨a, b, rfl⟩ := len2 hn
    refine good_fn F env _ _ (fun _ => ?_) (by simp [Op.type]) (by simp [Op.type]) (by simp [Op.type]) (by simp [Op.type])
    refine noAbort_isEqual F env a b (hes a (by simp)) (hes b (by simp)) ht (fun h => ?_)
    have hw : wantsReal .eq [a, b] = true := by simpa [wantsReal] using h
    exact ⟨hreal hw a (by simp), hreal hw b (by simp)⟩
  case NE =>
    cases hop
    obtain ⟨a, b, rfl⟩ := len2 hn
    refine good_fn F env _ _ (fun _ => ?_) (by simp [Op.type]) (by simp [Op.type]) (by simp [Op.type]) (by simp [Op.type])
    refine noAbort_ask (noAbort_isEqual F env a b (hes a (by simp)) (hes b (by simp)) ht (fun h => ?_))
      (fun x => by cases x <;> exact noAbort_ok _)
    have hw : wantsReal .ne [a, b] = true := by simpa [wantsReal] using h
    exact ⟨hreal hw a (by simp), hreal hw b (by simp)⟩

mutual
theorem build_good (F : FloatOps) (env : Env) : ∀ (s : Src) (d : VType) (e : Expr), s.build d = some e → e.Plain →
    Good F env e
  | .leaf t i, d, e, h, hp => by
    simp only [Src.build, Option.some.injEq] at h
    subst h
    exact good_leaf F env t i hp
  | .app n args, d, e, h, hp => by
    unfold Src.build at h
    cases hb : Src.builds args with
    | none => rw [hb] at h; simp at h
    | some es =>
      rw [hb] at h
      simp only at h
      split at h
      · next hc =>
        cases hop : n.operator (es.map Expr.type) d with
        | none => rw [hop] at h; simp at h
        | some op =>
          rw [hop] at h
          simp only [Option.some.injEq] at h
          subst h
          simp only [Expr.Plain] at hp
          simp only [Bool.and_eq_true] at hc
          exact good_app F env n d es op
            (builds_good F env args es hb ((Plains_mem es).mp hp.2.2)) hc.1 hc.2 hop hp.1 hp.2.1
      · simp at h
theorem builds_good (F : FloatOps) (env : Env) : ∀ (ss : List Src) (es : List Expr), Src.builds ss = some es →
    (∀ e ∈ es, e.Plain) → ∀ e ∈ es, Good F env e
  | [], es, h, _ => by
    simp only [Src.builds, Option.some.injEq] at h
    subst h; simp
  | s :: ss, es, h, hp => by
    unfold Src.builds at h
    cases h1 : s.build .unknownT with
    | none => rw [h1] at h; simp at h
    | some e1 =>
      cases h2 : Src.builds ss with
      | none => rw [h1, h2] at h; simp at h
      | some es2 =>
        rw [h1, h2] at h
        simp only [Option.some.injEq] at h
        subst h
        intro e he
        rcases List.mem_cons.mp he with rfl | he
        · exact build_good F env s .unknownT e h1 (hp e (by simp))
        · exact builds_good F env ss es2 h2 (fun e he => hp e (by simp [he])) e he
end

/-- C41. An expression accepted by the parser, whatever its shape and depth, can be evaluated in every state
without a plan error: every getter of its own type answers (a value, unknown, or one of the undefined
arithmetic cases of C27, C37, C38).  Partial: the expression must not use one of the three things described
at `Expr.Plain`; the theorems below show that none of them can be left out. -/
theorem c41_accepted_partial (F : FloatOps) (env : Env) (s : Src) (desired : VType) (e : Expr)
    (h : s.build desired = some e) (hp : e.Plain) : Answers e.type (e.acc F env) :=
  (build_good F env s desired e h hp).1

/-- The hypotheses are met by a nested expression with operators of all kinds:
`AND(LT(ADD(i, STRLEN(s)), 3), EQ(CEIL(r), i))`. -/
def sampleSrc : Src :=
  .app .AND [
    .app .LT [.app .ADD [.leaf .integer 0, .app .STRLEN [.leaf .string 1]], .leaf .integer 2],
    .app .EQ [.app .CEIL [.leaf .real 3], .leaf .integer 0]]

theorem c41_case : ∃ e, sampleSrc.build .boolean = some e ∧ e.Plain ∧ e.type = .boolean := by
  refine ⟨_, rfl, ?_, rfl⟩
  simp [Expr.Plain, Expr.Plains, isDiv, wantsReal, isSize]

/-- DIV with three operands is accepted by the parser, and its evaluation is a plan error. -/
theorem c41_div_counterexample (F : FloatOps) (env : Env) :
    ∃ e, (Src.app .DIV [.leaf .integer 0, .leaf .integer 1, .leaf .integer 2]).build .unknownT = some e ∧
      e.type = .integer ∧ e.evalI F env = .error .abort := by
  refine ⟨_, rfl, rfl, ?_⟩
  rfl

/-- `ADD(STRLEN(s), r)` with a Real variable `r` is accepted, and its evaluation is a plan error. -/
theorem c41_strlen_counterexample (F : FloatOps) (env : Env) :
    ∃ e, (Src.app .ADD [.app .STRLEN [.leaf .string 0], .leaf .real 1]).build .unknownT = some e ∧
      e.type = .real ∧ e.evalR F env = .error .abort := by
  refine ⟨_, rfl, rfl, ?_⟩
  rfl

/-- So is `EQ(r, ArraySize(a))`. -/
theorem c41_arraysize_counterexample (F : FloatOps) (env : Env) (h : ∃ d, env 0 = some (.real d)) :
    ∃ e, (Src.app .EQ [.leaf .real 0, .app .ArraySize [.leaf .integerArray 1]]).build .unknownT = some e ∧
      e.type = .boolean ∧ e.evalB F env = .error .abort := by
  obtain ⟨d, hd⟩ := h
  refine ⟨_, rfl, rfl, ?_⟩
  rw [evalB_fn]
  simp [callB, isEqual, both, Expr.acc, leafAcc, hd, fnAcc, callR, Expr.accs]

/-- A Boolean operation on an operand of unknown type is accepted, and its evaluation is a plan error. -/
theorem c41_untyped_counterexample (F : FloatOps) (env : Env) :
    ∃ e, (Src.app .NOT [.leaf .unknownT 0]).build .unknownT = some e ∧
      e.type = .boolean ∧ e.evalB F env = .error .abort := by
  refine ⟨_, rfl, rfl, ?_⟩
  rfl

/-! ### Integer answers are Integers -/

theorem sizeToInt_range (n : Nat) : InI32 (sizeToInt n) := by
  unfold sizeToInt InI32
  have h1 := BitVec.two_mul_toInt_lt (x := BitVec.ofNat 32 n)
  have h2 := BitVec.le_two_mul_toInt (x := BitVec.ofNat 32 n)
  omega

theorem ck_range {m n : Int} (h : ck m = .ok (some n)) : InI32 n := by
  unfold ck at h
  split at h
  · cases h; assumption
  · cases h

theorem ask_some {α β} {a : Ans α} {k : Option α → Except Err (Option β)} {y : β} (h : ask a k = .ok (some y)) :
    ∃ x, a = .ok x ∧ k x = .ok (some y) := by
  cases a with
  | error e => cases h
  | ok x => exact ⟨x, rfl, h⟩

theorem both_some {α β γ} {a : Ans α} {b : Ans β} {f : α → β → Except Err (Option γ)} {y : γ}
    (h : both a b f = .ok (some y)) : ∃ x z, a = .ok (some x) ∧ b = .ok (some z) ∧ f x z = .ok (some y) := by
  obtain ⟨x, hx, h⟩ := ask_some h
  cases x with
  | none => cases h
  | some x =>
    obtain ⟨z, hz, h⟩ := ask_some h
    cases z with
    | none => cases h
    | some z => exact ⟨x, z, hx, hz, h⟩

theorem foldArgs_range (f : Int → Int → Ans Int) (hf : ∀ x y n, InI32 x → InI32 y → f x y = .ok (some n) → InI32 n)
    (as : List (Ans Int)) (w n : Int) (hw : InI32 w) (has : ∀ a ∈ as, ∀ n, a = .ok (some n) → InI32 n)
    (h : foldArgs f as w = .ok (some n)) : InI32 n := by
  induction as generalizing w with
  | nil => simp [foldArgs] at h; exact h ▸ hw
  | cons a as ih =>
    unfold foldArgs at h
    obtain ⟨x, hx, h⟩ := ask_some h
    cases x with
    | none => cases h
    | some x =>
      obtain ⟨z, hz, h⟩ := ask_some h
      cases z with
      | none => cases h
      | some z =>
        exact ih z (hf w x z hw (has a (by simp) x hx) hz) (fun a ha => has a (by simp [ha])) h

theorem foldArgs1_range (f : Int → Int → Ans Int) (hf : ∀ x y n, InI32 x → InI32 y → f x y = .ok (some n) → InI32 n)
    (as : List (Ans Int)) (n : Int) (has : ∀ a ∈ as, ∀ n, a = .ok (some n) → InI32 n)
    (h : foldArgs1 f as = .ok (some n)) : InI32 n := by
  cases as with
  | nil => cases h
  | cons a as =>
    unfold foldArgs1 at h
    obtain ⟨x, hx, h⟩ := ask_some h
    cases x with
    | none => cases h
    | some x => exact foldArgs_range f hf as x n (has a (by simp) x hx) (fun a ha => has a (by simp [ha])) h

theorem arith2I_range (o : Arith) (x y n : Int) (hx : InI32 x) (hy : InI32 y) (h : arith2I o x y = .ok (some n)) :
    InI32 n := by
  cases o <;> simp only [arith2I] at h
  · exact ck_range h
  · exact ck_range h
  · exact ck_range h
  · split at h
    · cases h
    · exact ck_range h
  · split at h
    · cases h
    · split at h
      · cases h
        have h1 : (x.tmod y).natAbs ≤ x.natAbs := by
          rw [Int.natAbs_tmod]; exact Nat.mod_le _ _
        have h2 : (x.tmod y).natAbs < y.natAbs := by
          rw [Int.natAbs_tmod]; exact Nat.mod_lt _ (by omega)
        unfold InI32 at *
        omega
      · cases h
  · simp only [Except.ok.injEq, Option.some.injEq] at h
    subst h; split <;> assumption
  · simp only [Except.ok.injEq, Option.some.injEq] at h
    subst h; split <;> assumption
  · cases h

theorem arithI_range (o : Arith) (as : List (Ans Int)) (n : Int)
    (has : ∀ a ∈ as, ∀ n, a = .ok (some n) → InI32 n) (h : arithI o as = .ok (some n)) : InI32 n := by
  match as with
  | [] =>
    cases o <;> simp [arithI, foldArgs, foldArgs1] at h
    subst h; decide
  | [a] =>
    have ha := has a (by simp)
    cases o <;> simp only [arithI] at h <;> (try exact ha n h) <;> (try cases h)
    · obtain ⟨x, hx, h⟩ := ask_some h
      cases x with
      | none => cases h
      | some x => exact ck_range h
    · obtain ⟨x, hx, h⟩ := ask_some h
      cases x with
      | none => cases h
      | some x =>
        simp only at h
        split at h
        · exact ck_range h
        · cases h; exact ha _ hx
  | [a, b] =>
    cases o <;> simp only [arithI] at h <;> (try cases h) <;>
    · obtain ⟨x, z, hx, hz, h⟩ := both_some h
      exact arith2I_range _ x z n (has a (by simp) x hx) (has b (by simp) z hz) h
  | a :: b :: c :: as =>
    cases o <;> simp only [arithI] at h <;> (try cases h)
    · exact foldArgs_range _ (arith2I_range .add) _ 0 n (by decide) has h
    · exact foldArgs1_range _ (arith2I_range .sub) _ n has h
    · exact foldArgs1_range _ (arith2I_range .mul) _ n has h
    · refine foldArgs1_range _ ?_ _ n has h
      intro x y n hx hy h
      simp only [Except.ok.injEq, Option.some.injEq] at h
      subst h; split <;> assumption
    · refine foldArgs1_range _ ?_ _ n has h
      intro x y n hx hy h
      simp only [Except.ok.injEq, Option.some.injEq] at h
      subst h; split <;> assumption

theorem realToInt_range (d : Dbl) (n : Int) (h : realToInt d = .ok (some n)) : InI32 n := by
  cases d with
  | nan => cases h
  | ninf => cases h
  | pinf => cases h
  | fin k =>
    simp only [realToInt] at h
    split at h
    · cases h
    · next hr =>
      split at h
      · cases h
      · next hk =>
        simp only [Except.ok.injEq, Option.some.injEq] at h
        subst h
        have hk' : k = k.tdiv unit * unit := by omega
        rw [hk'] at hr
        have hu := unit_pos
        have g1 : ¬ k.tdiv unit < -2147483648 := fun h => hr (Or.inl (Int.mul_lt_mul_of_pos_right h hu))
        have g2 : ¬ k.tdiv unit > 2147483647 := fun h => hr (Or.inr (Int.mul_lt_mul_of_pos_right h hu))
        unfold InI32; omega

theorem callI_range (op : Op) (as : List Acc) (n : Int)
    (has : ∀ a ∈ as, ∀ n, a.getI = .ok (some n) → InI32 n) (h : callI op as = .ok (some n)) : InI32 n := by
  unfold callI at h
  split at h
  · refine arithI_range _ _ n ?_ h
    intro a ha n hn
    obtain ⟨x, hx, rfl⟩ := List.mem_map.mp ha
    exact has x hx n hn
  · obtain ⟨x, hx, h⟩ := ask_some h
    cases x with
    | none => cases h
    | some x => exact realToInt_range x n h
  · obtain ⟨x, hx, h⟩ := ask_some h
    cases x with
    | none => cases h
    | some x => exact realToInt_range x n h
  · obtain ⟨x, hx, h⟩ := ask_some h
    cases x with
    | none => cases h
    | some x => simp only [Except.ok.injEq, Option.some.injEq] at h; subst h; exact sizeToInt_range _
  · obtain ⟨x, hx, h⟩ := ask_some h
    cases x with
    | none => cases h
    | some x => simp only [Except.ok.injEq, Option.some.injEq] at h; subst h; exact sizeToInt_range _
  · obtain ⟨x, hx, h⟩ := ask_some h
    cases x with
    | none => cases h
    | some x => simp only [Except.ok.injEq, Option.some.injEq] at h; subst h; exact sizeToInt_range _
  · cases h

mutual
/-- C37: whenever any expression, of any depth, gives a known Integer, that number is in the Integer range. -/
theorem c37_integer_range (F : FloatOps) (env : Env) : ∀ (e : Expr) (n : Int), e.evalI F env = .ok (some n) → InI32 n
  | .leaf t i, n, h => by
    simp only [Expr.evalI, Expr.acc, leafAcc] at h
    split at h
    · simp only [Except.ok.injEq] at h
      split at h
      · next v _ =>
        cases h
        have h1 := BitVec.two_mul_toInt_lt (x := v)
        have h2 := BitVec.le_two_mul_toInt (x := v)
        unfold InI32; omega
      · cases h
    · cases h
  | .fn op args, n, h => by
    rw [evalI_fn] at h
    refine callI_range op _ n ?_ h
    intro a ha m hm
    obtain ⟨e, he, rfl⟩ := List.mem_map.mp ha
    exact c37_integer_ranges F env args e he m hm
theorem c37_integer_ranges (F : FloatOps) (env : Env) : ∀ (es : List Expr), ∀ e ∈ es, ∀ n : Int,
    e.evalI F env = .ok (some n) → InI32 n
  | [], e, he, n, h => by cases he
  | e' :: es, e, he, n, h => by
    rcases List.mem_cons.mp he with heq | he
    · rw [heq] at h; exact c37_integer_range F env e' n h
    · exact c37_integer_ranges F env es e he n h
end

/-- A type arithmetic is done with: a number, a date, a duration, or not known. -/
def ArithType (t : VType) : Prop := t = .integer ∨ t = .real ∨ t = .date ∨ t = .duration ∨ t = .unknownT

private theorem loop_other (ts : List VType) : ∀ r, (∃ t ∈ ts, ¬ ArithType t) → commonLoop ts r = .unknownT := by
  induction ts with
  | nil => rintro r ⟨t, ht, _⟩; simp at ht
  | cons a ts ih =>
    rintro r ⟨t, ht, hn⟩
    rcases List.mem_cons.1 ht with rfl | ht'
    · cases t <;> simp [ArithType] at hn <;> rfl
    · cases a <;> simp only [commonLoop] <;> exact ih _ ⟨t, ht', hn⟩

private theorem loop_real (ts : List VType) : (∀ t ∈ ts, ArithType t) → commonLoop ts .real = .real := by
  induction ts with
  | nil => intro _; rfl
  | cons a ts ih =>
    intro h
    have ha := h a (by simp)
    have := ih (fun t ht => h t (by simp [ht]))
    cases a <;> simp [ArithType] at ha <;> simpa [commonLoop] using this

private theorem loop_int (ts : List VType) : (∀ t ∈ ts, ArithType t) →
    commonLoop ts .integer = if ∀ t ∈ ts, t = .integer ∨ t = .unknownT then .integer else .real := by
  induction ts with
  | nil => intro _; simp [commonLoop]
  | cons a ts ih =>
    intro h
    have ha := h a (by simp)
    have h' : ∀ t ∈ ts, ArithType t := fun t ht => h t (by simp [ht])
    have := ih h'
    cases a <;> simp [ArithType] at ha <;> simp [commonLoop, this, loop_real ts h']

/-- **C41, the type of arithmetic**, which decides whether it is done in integers or reals: none if an operand is of any other type; otherwise integers if the first operand is an integer, or its type is not known and an integer is wanted, and every other one is an integer or its
type not known; otherwise reals. -/
theorem c41_arithmetic_type (t : VType) (ts : List VType) (desired : VType) :
    arithmeticCommonType (t :: ts) desired =
      if ∃ u ∈ t :: ts, u ≠ .integer ∧ u ≠ .real ∧ u ≠ .date ∧ u ≠ .duration ∧ u ≠ .unknownT then .unknownT
      else if (t = .integer ∨ t = .unknownT ∧ desired = .integer) ∧ ∀ u ∈ ts, u = .integer ∨ u = .unknownT then .integer
      else .real := by
  have e : (∃ u ∈ t :: ts, u ≠ .integer ∧ u ≠ .real ∧ u ≠ .date ∧ u ≠ .duration ∧ u ≠ .unknownT) ↔ ∃ u ∈ t :: ts, ¬ ArithType u := by
    constructor <;> rintro ⟨u, hu, h⟩ <;> refine ⟨u, hu, ?_⟩
    · rintro (h' | h' | h' | h' | h') <;> simp_all
    · simp only [ArithType, not_or] at h; exact h
  by_cases hx : ∃ u ∈ t :: ts, ¬ ArithType u
  · rw [if_pos (e.2 hx)]
    obtain ⟨u, hu, hn⟩ := hx
    rcases List.mem_cons.1 hu with rfl | hu
    · cases u <;> simp [ArithType] at hn <;> rfl
    · have := fun r => loop_other ts r ⟨u, hu, hn⟩
      cases t <;> simp [arithmeticCommonType, this]
  · rw [if_neg (fun c => hx (e.1 c))]
    have h' : ∀ u ∈ ts, ArithType u := fun u hu => Classical.byContradiction fun c => hx ⟨u, by simp [hu], c⟩
    have ht : ArithType t := Classical.byContradiction fun c => hx ⟨t, by simp, c⟩
    have hr := loop_real ts h'
    have hi := loop_int ts h'
    rcases ht with rfl | rfl | rfl | rfl | rfl <;> simp [arithmeticCommonType, hr, hi]
    by_cases hd : desired = .integer <;> simp [hd, hr, hi]

/-- **C39, the type of a comparison**: dates and durations count as reals; two of the same type are compared as that type, an integer with a real as reals; if only the type of the first is not known, as the second if this is a number or a string, and if only that of
the second is not known, as reals, whatever number the first is. -/
theorem c39_comparison_type (a b : VType) :
    (comparisonType a b = .integer ↔ a = .integer ∧ b = .integer ∨ a = .unknownT ∧ b = .integer) ∧
      (comparisonType a b = .real ↔
        (a = .real ∨ a = .date ∨ a = .duration) ∧ (b = .integer ∨ b = .real ∨ b = .date ∨ b = .duration ∨ b = .unknownT) ∨
        a = .integer ∧ (b = .real ∨ b = .date ∨ b = .duration ∨ b = .unknownT) ∨ a = .unknownT ∧ (b = .real ∨ b = .date ∨ b = .duration)) ∧
      (comparisonType a b = .string ↔ (a = .string ∨ a = .unknownT) ∧ b = .string) := by
  cases a <;> cases b <;> decide

end Verif.Expr
