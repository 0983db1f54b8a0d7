import Verif.Expr.Lemmas
/-
Properties C27, C37-C40: what the operators of the expression language compute.

All theorems are about an expression object `Expr.fn op args` evaluated in an arbitrary state (`env`), and
speak only of what its operands answer when asked.  The expected values (`kAnd`, `kOr`, `strict`, `IsCeil` …)
are in `Verif/Expr/Spec.lean`.
-/
namespace Verif.Expr
open Verif.Value

/-- The operands, asked for a Boolean, answer `vals` (`none` = unknown). -/
def AnswerB (F : FloatOps) (env : Env) (args : List Expr) (vals : List (Option Bool)) : Prop :=
  args.map (fun e => (e.acc F env).getB) = vals.map .ok
/-- The operands, asked for an Integer, answer `vals`. -/
def AnswerI (F : FloatOps) (env : Env) (args : List Expr) (vals : List (Option Int)) : Prop :=
  args.map (fun e => (e.acc F env).getI) = vals.map .ok
/-- The operands, asked for a Real, answer `vals`. -/
def AnswerR (F : FloatOps) (env : Env) (args : List Expr) (vals : List (Option Dbl)) : Prop :=
  args.map (fun e => (e.acc F env).getR) = vals.map .ok
/-- The operands, asked for a String (either way), answer `vals`. -/
def AnswerS (F : FloatOps) (env : Env) (args : List Expr) (vals : List (Option Str)) : Prop :=
  args.map (fun e => (e.acc F env).getS) = vals.map .ok ∧
  args.map (fun e => (e.acc F env).ptrS) = vals.map .ok

/-- The Boolean an expression answers. -/
def Expr.evalB (F : FloatOps) (env : Env) (e : Expr) : Ans Bool := (e.acc F env).getB
/-- The Integer an expression answers. -/
def Expr.evalI (F : FloatOps) (env : Env) (e : Expr) : Ans Int := (e.acc F env).getI
/-- The Real an expression answers. -/
def Expr.evalR (F : FloatOps) (env : Env) (e : Expr) : Ans Dbl := (e.acc F env).getR
/-- The String an expression answers. -/
def Expr.evalS (F : FloatOps) (env : Env) (e : Expr) : Ans Str := (e.acc F env).getS

theorem evalB_fn (F : FloatOps) (env : Env) (op : Op) (args : List Expr) :
    (Expr.fn op args).evalB F env = callB op (args.map (Expr.acc F env)) := by
  simp [Expr.evalB, Expr.acc, fnAcc, accs_eq]
theorem evalI_fn (F : FloatOps) (env : Env) (op : Op) (args : List Expr) :
    (Expr.fn op args).evalI F env = callI op (args.map (Expr.acc F env)) := by
  simp [Expr.evalI, Expr.acc, fnAcc, accs_eq]
theorem evalR_fn (F : FloatOps) (env : Env) (op : Op) (args : List Expr) :
    (Expr.fn op args).evalR F env = callR F op (args.map (Expr.acc F env)) := by
  simp [Expr.evalR, Expr.acc, fnAcc, accs_eq]
theorem evalS_fn (F : FloatOps) (env : Env) (op : Op) (args : List Expr) :
    (Expr.fn op args).evalS F env = callS op (args.map (Expr.acc F env)) := by
  simp [Expr.evalS, Expr.acc, fnAcc, accs_eq]

theorem AnswerB.length {F env args vals} (h : AnswerB F env args vals) : args.length = vals.length := by
  have := congrArg List.length h; simpa using this

theorem AnswerB.ops {F env args vals} (h : AnswerB F env args vals) :
    (args.map (Expr.acc F env)).map (·.getB) = vals.map .ok := by
  rw [← h, List.map_map]; rfl
theorem AnswerI.ops {F env args vals} (h : AnswerI F env args vals) :
    (args.map (Expr.acc F env)).map (·.getI) = vals.map .ok := by
  rw [← h, List.map_map]; rfl
theorem AnswerR.ops {F env args vals} (h : AnswerR F env args vals) :
    (args.map (Expr.acc F env)).map (·.getR) = vals.map .ok := by
  rw [← h, List.map_map]; rfl

/-! ### C27: the logical operators -/

/-- AND of any number of operands is Kleene conjunction. -/
theorem c27_and (F : FloatOps) (env : Env) (args : List Expr) (vals : List (Option Bool))
    (h : AnswerB F env args vals) : (Expr.fn .and args).evalB F env = .ok (kAnd vals) := by
  rw [evalB_fn]
  show andOp _ = _
  rw [h.ops, andOp_spec]

/-- NOT is Kleene negation. -/
theorem c27_not (F : FloatOps) (env : Env) (a : Expr) (v : Option Bool) (h : a.evalB F env = .ok v) :
    (Expr.fn .not [a]).evalB F env = .ok (kNot v) := by
  rw [evalB_fn]
  show notOp (a.evalB F env) = _
  rw [h]; cases v <;> rfl

/-- OR of one or two operands is Kleene disjunction. -/
theorem c27_or_partial (F : FloatOps) (env : Env) (args : List Expr) (vals : List (Option Bool))
    (h : AnswerB F env args vals) (hn : args.length = 1 ∨ args.length = 2) :
    (Expr.fn .or args).evalB F env = .ok (kOr vals) := by
  rw [evalB_fn]
  show orOp _ = _
  rw [h.ops, orOp_small]
  rw [← h.length]; exact hn

/-- OR of any other number of operands is Kleene disjunction exactly if an operand is true, or the operands
are all false, or all unknown; a mix of false and unknown operands is wrongly false, and OR of no operands
wrongly unknown. -/
theorem c27_or_nary_exact (F : FloatOps) (env : Env) (args : List Expr) (vals : List (Option Bool))
    (h : AnswerB F env args vals) (h1 : args.length ≠ 1) (h2 : args.length ≠ 2) :
    (Expr.fn .or args).evalB F env = .ok (kOr vals) ↔
      some true ∈ vals ∨ (some false ∈ vals ↔ none ∉ vals) := by
  rw [evalB_fn]
  show orOp _ = _ ↔ _
  rw [h.ops, orOp_big vals (by rw [← h.length]; exact h1) (by rw [← h.length]; exact h2)]
  unfold kOr
  by_cases ht : some true ∈ vals
  · simp [ht]
  · by_cases hf : some false ∈ vals <;> by_cases hu : none ∈ vals <;> simp [ht, hf, hu]

/-- What OR of three or more operands really computes: a true operand wins, else a false operand wins. -/
theorem c27_or_nary_value (F : FloatOps) (env : Env) (args : List Expr) (vals : List (Option Bool))
    (h : AnswerB F env args vals) (h3 : 3 ≤ args.length) :
    (Expr.fn .or args).evalB F env =
      .ok (if some true ∈ vals then some true else if some false ∈ vals then some false else none) := by
  rw [evalB_fn]
  show orOp _ = _
  have hl := h.length
  rw [h.ops, orOp_big vals (by omega) (by omega)]

/-- XOR of one or two operands is exclusive or, unknown if an operand is. -/
theorem c27_xor_partial (F : FloatOps) (env : Env) (args : List Expr) (vals : List (Option Bool))
    (h : AnswerB F env args vals) (hn : args.length = 1 ∨ args.length = 2) :
    (Expr.fn .xor args).evalB F env = .ok (kXor vals) := by
  rw [evalB_fn]
  show xorOp _ = _
  rw [h.ops]
  rw [h.length] at hn
  match vals, hn with
  | [x], _ => rcases x with _ | x <;> (try cases x) <;> simp [xorOp, kXor]
  | [x, y], _ =>
    rcases x with _ | x <;> rcases y with _ | y <;> (try cases x) <;> (try cases y) <;>
      simp [xorOp, xor2, kXor]
  | [], hn => simp at hn
  | _ :: _ :: _ :: _, hn => simp at hn

/-- XOR of three or more operands never gives a truth value: it is unknown if the first operand is known,
and undefined behaviour otherwise. -/
theorem c27_xor_nary_never (F : FloatOps) (env : Env) (args : List Expr) (vals : List (Option Bool))
    (h : AnswerB F env args vals) (h3 : 3 ≤ args.length) :
    (Expr.fn .xor args).evalB F env = (if vals.headD none = none then .error .ub else .ok none) := by
  rw [evalB_fn]
  show xorOp _ = _
  rw [h.ops]
  rw [h.length] at h3
  match vals, h3 with
  | x :: y :: z :: vals, _ =>
    rcases x with _ | x <;> simp [xorOp, xorLoop]
  | [], h3 => simp at h3
  | [_], h3 => simp at h3
  | [_, _], h3 => simp at h3

/-- The order of the operands of AND does not matter. -/
theorem c27_and_perm (F : FloatOps) (env : Env) (args args' : List Expr) (vals : List (Option Bool))
    (hp : args.Perm args') (h : AnswerB F env args vals) :
    (Expr.fn .and args).evalB F env = (Expr.fn .and args').evalB F env := by
  obtain ⟨vals', hv, ha⟩ : ∃ vals', vals.Perm vals' ∧ AnswerB F env args' vals' := by
    have hm := hp.map (fun e => (e.acc F env).getB)
    rw [show args.map (fun e => (e.acc F env).getB) = vals.map .ok from h] at hm
    refine ⟨(args'.map (fun e => (e.acc F env).getB)).map (fun a => match a with | .ok v => v | _ => none), ?_, ?_⟩
    · have := hm.map (fun a : Ans Bool => match a with | .ok v => v | _ => none)
      rw [List.map_map] at this
      simpa [Function.comp_def] using this
    · unfold AnswerB
      rw [List.map_map, List.map_map]
      refine List.map_congr_left ?_
      intro e he
      have : (e.acc F env).getB ∈ vals.map Except.ok := hm.mem_iff.mpr (List.mem_map.mpr ⟨e, he, rfl⟩)
      obtain ⟨v, _, hv⟩ := List.mem_map.mp this
      simp [← hv]
  rw [c27_and F env args vals h, c27_and F env args' vals' ha]
  simp [kAnd, hv.mem_iff]

/-- Learning the value of an operand never changes a known result of AND. -/
theorem c27_and_monotone (F : FloatOps) (env env' : Env) (args : List Expr) (vals vals' : List (Option Bool))
    (h : AnswerB F env args vals) (h' : AnswerB F env' args vals')
    (hr : ∀ p ∈ vals.zip vals', Refines p.1 p.2) (b : Bool)
    (hb : (Expr.fn .and args).evalB F env = .ok (some b)) :
    (Expr.fn .and args).evalB F env' = .ok (some b) := by
  rw [c27_and F env args vals h] at hb
  rw [c27_and F env' args vals' h']
  have hl : vals.length = vals'.length := by rw [← h.length, ← h'.length]
  clear h h'
  have key : ∀ b, some b ∈ vals → some b ∈ vals' := by
    clear hb
    intro b hb
    obtain ⟨i, hi, hv⟩ := List.getElem_of_mem hb
    have hm : (vals[i], vals'[i]'(hl ▸ hi)) ∈ vals.zip vals' := by
      rw [List.mem_iff_getElem]
      exact ⟨i, by simp; omega, by simp⟩
    rcases hr _ hm with h | h
    · rw [hv] at h; cases h
    · rw [hv] at h
      have h : some b = vals'[i]'(hl ▸ hi) := h
      rw [h]; exact List.getElem_mem _
  unfold kAnd at hb ⊢
  by_cases hf : some false ∈ vals
  · simp only [hf, if_true] at hb
    simpa [key _ hf] using hb
  · by_cases hu : none ∈ vals
    · simp [hf, hu] at hb
    · have hall : vals = vals' := by
        apply List.ext_getElem hl
        intro i hi hi'
        have hm : (vals[i], vals'[i]) ∈ vals.zip vals' := by
          rw [List.mem_iff_getElem]
          exact ⟨i, by simp; omega, by simp⟩
        rcases hr _ hm with h | h
        · exact absurd (h ▸ List.getElem_mem hi) hu
        · exact h
      rw [← hall]; exact hb

/-- De Morgan: NOT of AND is OR of the NOTs, for two operands. -/
theorem c27_de_morgan (F : FloatOps) (env : Env) (a b : Expr) (x y : Option Bool)
    (ha : a.evalB F env = .ok x) (hb : b.evalB F env = .ok y) :
    (Expr.fn .not [.fn .and [a, b]]).evalB F env =
      (Expr.fn .or [.fn .not [a], .fn .not [b]]).evalB F env := by
  have h1 : AnswerB F env [a, b] [x, y] := by
    simp only [Expr.evalB] at ha hb; simp [AnswerB, ha, hb]
  have h2 : AnswerB F env [.fn .not [a], .fn .not [b]] [kNot x, kNot y] := by
    have e1 := c27_not F env a x ha
    have e2 := c27_not F env b y hb
    simp only [Expr.evalB] at e1 e2
    simp [AnswerB, e1, e2]
  rw [c27_not F env _ _ (c27_and F env _ _ h1), c27_or_partial F env _ _ h2 (by simp)]
  rcases x with _ | x <;> rcases y with _ | y <;> (try cases x) <;> (try cases y) <;> rfl

/-- A leaf holding a Boolean, for the examples. -/
def boolEnv (l : List (Option Bool)) : Env := fun i => (l.getD i none).map Payload.bool

/-- The hypothesis of the theorems above is met by any variables, e.g. three of them. -/
theorem c27_case (F : FloatOps) :
    AnswerB F (boolEnv [some false, none, some false])
      [.leaf .boolean 0, .leaf .boolean 1, .leaf .boolean 2] [some false, none, some false] := by
  simp [AnswerB, Expr.acc, leafAcc, boolEnv]

/-- OR(false, unknown, false) is false in the code; it should be unknown. -/
theorem c27_or_counterexample (F : FloatOps) :
    (Expr.fn .or [.leaf .boolean 0, .leaf .boolean 1, .leaf .boolean 2]).evalB F
        (boolEnv [some false, none, some false]) = .ok (some false) ∧
    kOr [some false, none, some false] = none :=
  ⟨by rw [c27_or_nary_value F _ _ _ (c27_case F) (by simp)]; simp, by decide⟩

/-- … so the wrong answer changes from false to true when the unknown operand becomes known. -/
theorem c27_or_not_monotone (F : FloatOps) :
    (Expr.fn .or [.leaf .boolean 0, .leaf .boolean 1, .leaf .boolean 2]).evalB F
        (boolEnv [some false, some true, some false]) = .ok (some true) := by
  rw [evalB_fn]; simp [callB, orOp, orLoop, Expr.acc, leafAcc, boolEnv]

/-- XOR(true, false, false) is unknown in the code; it should be true. -/
theorem c27_xor_counterexample (F : FloatOps) :
    (Expr.fn .xor [.leaf .boolean 0, .leaf .boolean 1, .leaf .boolean 2]).evalB F
        (boolEnv [some true, some false, some false]) = .ok none ∧
    kXor [some true, some false, some false] = some true := by
  constructor
  · rw [evalB_fn]; simp [callB, xorOp, xorLoop, Expr.acc, leafAcc, boolEnv]
  · decide

end Verif.Expr
