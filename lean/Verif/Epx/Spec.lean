import Verif.Epx.Model
/-
What is claimed about Extended PLEXIL constructs: executions of a node, and being active.
-/
set_option autoImplicit false
namespace Verif.Epx
open Verif.Node Verif.Exec

variable {Val Env : Type}

/-- The history `log` reports that node `p` starts, while no child of it (`kids`) is going on, and later, in the same execution of `p` and after
the transitions `L1`, that node `m` goes from `a` to `b` in situation `o`. -/
def During (p : NodeId) (kids : List NodeId) (log L1 : List (Event Val Env)) (m : NodeId) (a b : NState) (o : Obs Val Env) : Prop :=
  ∃ L0 o1 L2, log = L0 ++ .trans p .waiting .executing o1 :: (L1 ++ .trans m a b o :: L2) ∧
    (∀ k ∈ kids, o1.st k = .inactive ∨ o1.st k = .finished) ∧ ∀ a' o', .trans p a' .waiting o' ∉ L1

/-- The history `log` reports that node `p` starts, while no child of it is going on, then the transitions `L1` of the same execution of `p`. -/
def Ongoing (p : NodeId) (kids : List NodeId) (log L1 : List (Event Val Env)) : Prop :=
  ∃ L0 o1, log = L0 ++ .trans p .waiting .executing o1 :: L1 ∧
    (∀ k ∈ kids, o1.st k = .inactive ∨ o1.st k = .finished) ∧ ∀ a' o', .trans p a' .waiting o' ∉ L1

/-- Started and not yet done, repetitions included: not INACTIVE, WAITING or FINISHED. -/
def Active (s : NState) : Prop := s ≠ .inactive ∧ s ≠ .waiting ∧ s ≠ .finished

/-- The history reports that the node started, or that its PreCondition was checked. -/
def Started (n : NodeId) (L : List (Event Val Env)) : Prop := ∃ y o, .trans n .waiting y o ∈ L ∧ (y = .executing ∨ y = .iterationEnded)

/-- The history reports that test node `k` evaluated its condition, and whenever it did so the condition was true (`v`), or not true, i.e. false or unknown (`¬ v`). -/
def Verdict (k : NodeId) (cond : Obs Val Env → Option Bool) (L : List (Event Val Env)) (v : Bool) : Prop :=
  (∃ o, .trans k .executing .iterationEnded o ∈ L) ∧ ∀ o, .trans k .executing .iterationEnded o ∈ L → (cond o = some true ↔ v = true)

/-- The children of an If with ElseIf: tests and clauses. -/
def parts (bs : List (Branch Val Env)) (els : Option (NodeId × NodeDef Val Env)) : List NodeId :=
  bs.flatMap (fun b => [b.test, b.clause.1]) ++ els.toList.map Prod.fst

end Verif.Epx
