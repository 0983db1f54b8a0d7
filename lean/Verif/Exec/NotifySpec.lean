import Verif.Exec.Spec
/-
Specification: what it means that every change of a condition notifies the node.
-/
namespace Verif.Exec
open Verif.Node

variable {Val Env : Type} (P : Plan Val Env)

/-- What node `k` would do in situation `o`, were its conditions those of situation `oc`. -/
def decideWith (oc o : Obs Val Env) (k : NodeId) : Option Dest :=
  getDest (P.node k).type (o.st k) (parentState P o k) (o.fail k) (conds P oc k)

/-- The situation changes from `o1` to `o2` by a transition of node `n`. -/
structure MovedBy (n : NodeId) (o1 o2 : Obs Val Env) : Prop where
  st : ∀ m, m ≠ n → o2.st m = o1.st m
  out : ∀ m, m ≠ n → o2.out m = o1.out m
  fail : ∀ m, m ≠ n → o2.fail m = o1.fail m
  ack : ∀ m, m ≠ n → o2.ack m = o1.ack m
  abort : ∀ m, m ≠ n → o2.abort m = o1.abort m
  vars : ∀ v, v ∉ (P.node n).locals.map Prod.fst → o2.vars v = o1.vars v
  env : o2.env = o1.env ∨ o2.env = P.enter n o1.env

/-- Only variable `v`, acknowledgement and abort flag of `n` change. -/
structure WrittenBy (n : NodeId) (o1 o2 : Obs Val Env) : Prop where
  st : o2.st = o1.st
  out : o2.out = o1.out
  fail : o2.fail = o1.fail
  ack : ∀ m, m ≠ n → o2.ack m = o1.ack m
  abort : ∀ m, m ≠ n → o2.abort m = o1.abort m
  vars : ∀ v, v ≠ (P.node n).dest → o2.vars v = o1.vars v
  env : o2.env = o1.env

/-- Every change of the conditions of a node that makes a difference for what the node is to do next notifies the node. Changes of the
state of its parent do not count as changes of its conditions. -/
structure Notifies : Prop where
  trans : ∀ n o1 om o2, MovedBy P n o1 o2 → om.st = o1.st → om.vars = o2.vars → om.env = o1.env →
    ∀ k, k ≠ n → decideWith P o1 o2 k ≠ decideNext P o2 k → k ∈ P.wake (.pre n) om ∨ k ∈ P.wake (.post n) o2
  assign : ∀ n o1 o2, WrittenBy P n o1 o2 → ∀ k, decideNext P o1 k ≠ decideNext P o2 k → k ∈ P.wake (.assign n) o2
  retract : ∀ n o1 o2, WrittenBy P n o1 o2 → ∀ k, decideNext P o1 k ≠ decideNext P o2 k → k ∈ P.wake (.retract n) o2
  ack : ∀ n o1 o2, WrittenBy P n o1 o2 → o1.vars = o2.vars → ∀ k, decideNext P o1 k ≠ decideNext P o2 k → k ∈ P.wake (.ack n) o2

/-- Parents are list nodes and know their children. -/
def TreeOK : Prop := ∀ k p, (P.node k).anc.head? = some p → (P.node p).type = .list ∧ k ∈ (P.node p).children

/-- Executions in which the environment, too, notifies every node whose decision it changes. -/
inductive ReachN : Phase → St Val Env → Prop
  | init (vars : Nat → Val) (env : Env) : ReachN .idle (init vars env)
  | ext {s : St Val Env} (e : Env) (ns : List NodeId) : ReachN .idle s →
      (∀ k, decideNext P { s.obs with env := e } k ≠ decideNext P s.obs k → k ∈ ns) → ReachN .idle (notifyAll ns { s with env := e })
  | ackUpd {s : St Val Env} (n : NodeId) : ReachN .idle s → ReachN .idle (ackUpdate P n s)
  | deletePlans {s : St Val Env} : ReachN .idle s → ReachN .idle { s with fin := [] }
  | step {ph ph' s s'} : ReachN ph s → Step P (ph, s) (ph', s') → ¬ (ph = .idle ∧ ph' = .idle) → ReachN ph' s'

end Verif.Exec
