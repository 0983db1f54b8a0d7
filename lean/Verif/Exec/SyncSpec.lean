import Verif.Exec.NotifySpec
/-
Specification: executions in which all nodes move together, as in the published semantics of PLEXIL. No queues, no notifications.
-/
set_option autoImplicit false
namespace Verif.Exec
open Verif.Node

variable {Val Env : Type}

/-- State, outcome and failure type of every node. -/
abbrev Picture := NodeId → NState × Outcome × Failure

/-- What a situation says about the nodes. -/
def picture (o : Obs Val Env) : Picture := fun k => (o.st k, o.out k, o.fail k)

/-- One synchronous step: every node does what the rules for its type say in situation `o`. Only a node that waits for a mutex or a
variable, and a root that has not been added yet, may stay where it is. `B` are the nodes waiting for a mutex or a variable before the
step, `B'` those after it: to become one of them a node must be WAITING and allowed to start. -/
def SyncStep (P : Plan Val Env) (o : Obs Val Env) (B : NodeId → Prop) (t : Picture) (B' : NodeId → Prop) : Prop :=
  (∀ k, t k = synchronousNext P o k ∨ (t k = picture o k ∧ (B' k ∨ (o.st k = .inactive ∧ (P.node k).anc = [])))) ∧
  ∀ k, B' k → t k = picture o k ∧ o.st k = .waiting ∧ acquiresResources P k = true ∧
    ((∃ d, decideNext P o k = some d ∧ d.state = .executing) ∨ B k)

/-- The transitions of a synchronous step, in some order. -/
def report (o : Obs Val Env) (t : Picture) (ms : List NodeId) : List (Event Val Env) := ms.map fun n => .trans n (o.st n) (t n).1 o

/-- A synchronous execution, from the start: `SyncRun P L t B`: after the transitions `L` the nodes are as in `t`, and the nodes `B` wait
for a mutex or a variable. Between two steps variables and the outside world may change in any way. -/
inductive SyncRun (P : Plan Val Env) : List (Event Val Env) → Picture → (NodeId → Prop) → Prop
  | start : SyncRun P [] (fun _ => (.inactive, .none, .none)) fun _ => False
  | step {L o t B B'} (ms : List NodeId) : SyncRun P L (picture o) B → SyncStep P o B t B' → ms.Nodup →
      (∀ n, n ∈ ms ↔ (t n).1 ≠ o.st n) → SyncRun P (L ++ report o t ms) t B'

/-- The transitions among the events reported. -/
def transitions : List (Event Val Env) → List (Event Val Env)
  | [] => []
  | .trans n a b o :: rest => .trans n a b o :: transitions rest
  | _ :: rest => transitions rest

end Verif.Exec
