import Verif.Exec.Model
import Verif.Node.Spec
/-
Specification vocabulary for executions, independent of how the executive works.
-/
namespace Verif.Exec
open Verif.Node

variable {Val Env : Type}

/-- Which outcomes and failure types make sense in which state. -/
def Consistent : NState → Outcome → Failure → Prop
  | .inactive, o, f | .waiting, o, f | .executing, o, f | .finishing, o, f => o = .none ∧ f = .none
  | .failing, o, f =>
    (o = .interrupted ∧ (f = .exited ∨ f = .parentExited)) ∨ (o = .failure ∧ (f = .invFailed ∨ f = .parentFailed))
  | .iterationEnded, o, f =>
    (o = .success ∧ f = .none) ∨ (o = .interrupted ∧ f = .exited) ∨
    (o = .failure ∧ (f = .preFailed ∨ f = .postFailed ∨ f = .invFailed))
  | .finished, o, f =>
    (o = .success ∧ f = .none) ∨ (o = .skipped ∧ f = .none) ∨ (o = .interrupted ∧ (f = .exited ∨ f = .parentExited)) ∨
    (o = .failure ∧ (f = .preFailed ∨ f = .postFailed ∨ f = .invFailed ∨ f = .parentFailed))

/-- The states in which a node is doing something. -/
def Running (a : NState) : Prop := a = .executing ∨ a = .finishing ∨ a = .failing

/-- The state of a node according to the reported transitions. -/
def lastState (n : NodeId) : List (Event Val Env) → NState → NState
  | [], a => a
  | .trans m _ b _ :: rest, a => lastState n rest (if m = n then b else a)
  | _ :: rest, a => lastState n rest a

/-- The situation in which the body of a node last started. -/
def lastStart (n : NodeId) : List (Event Val Env) → Option (Obs Val Env) → Option (Obs Val Env)
  | [], x => x
  | .start m o :: rest, x => lastStart n rest (if m = n then some o else x)
  | _ :: rest, x => lastStart n rest x

def IsDone : Event Val Env → Prop
  | .stepDone _ => True
  | _ => False

/-- Transitions and starts, as opposed to output. -/
def IsMove : Event Val Env → Prop
  | .trans .. => True
  | .start .. => True
  | _ => False

/-- The bodies of nodes of type `t` started in a list of events, with the situation. -/
def starts (P : Plan Val Env) (t : NodeType) (l : List (Event Val Env)) : List (NodeId × Obs Val Env) :=
  l.filterMap fun
    | .start n o => if (P.node n).type = t then some (n, o) else none
    | _ => none

/-- The nodes of type `t` that move to FAILING in a list of events. -/
def failings (P : Plan Val Env) (t : NodeType) (l : List (Event Val Env)) : List NodeId :=
  l.filterMap fun
    | .trans n _ .failing _ => if (P.node n).type = t then some n else none
    | _ => none

/-- A complete macro step, as seen in the log: first the transitions `tr`; then one assignment per Assignment node started, with the
value the right-hand side had at the start; one retraction per Assignment node that moved to FAILING, with the value the variable had
when the node last started (in an earlier macro step); every command started is either executed, with the arguments it had at the start, or denied;
one abort per Command node that moved to FAILING; one update per Update node started. -/
structure MacroStep (P : Plan Val Env) (before seg : List (Event Val Env)) : Prop where
  shape : ∃ (tr : List (Event Val Env)) (accepted rejected : List (NodeId × Obs Val Env)) (o' : Obs Val Env),
    seg = tr ++ (starts P .assignment tr).map (fun p => .assign p.1 ((P.node p.1).rhs p.2)) ++
      (failings P .assignment tr).map (fun n => .retract n (o'.vars (P.node n).dest)) ++
      accepted.map (fun p => .command p.1 ((P.node p.1).rhs p.2)) ++ rejected.map (fun p => .deny p.1) ++
      (failings P .command tr).map .abort ++ (starts P .update tr).map (fun p => .update p.1 ((P.node p.1).rhs p.2)) ++
      [.stepDone o'] ∧
    (∀ e ∈ tr, IsMove e) ∧ (accepted ++ rejected).Perm (starts P .command tr) ∧
    ((starts P .assignment tr).map Prod.fst).Nodup ∧ ((starts P .command tr).map Prod.fst).Nodup ∧
    ((starts P .update tr).map Prod.fst).Nodup ∧ (failings P .assignment tr).Nodup ∧ (failings P .command tr).Nodup ∧
    (∀ p ∈ starts P .assignment tr, o'.vars (P.node p.1).dest = (P.node p.1).rhs p.2) ∧
    (∀ n ∈ failings P .assignment tr, n ∉ (starts P .assignment tr).map Prod.fst ∧ ∃ o, lastStart n before none = some o ∧
      o'.vars (P.node n).dest = o.vars (P.node n).dest)

/-- A sequence of complete macro steps. -/
inductive Macros (P : Plan Val Env) : List (Event Val Env) → Prop
  | nil : Macros P []
  | snoc {l seg} : Macros P l → MacroStep P l seg → Macros P (l ++ seg)

/-- The events `mid` are all of one micro step: they were decided in the situation `o`, which has the node states after `pre0`. -/
structure MicroSeg (pre0 mid : List (Event Val Env)) (o : Obs Val Env) : Prop where
  st : ∀ k, o.st k = lastState k pre0 .inactive
  moves : ∀ e ∈ mid, IsMove e
  same : ∀ m a b o', .trans m a b o' ∈ mid → o' = o

/-- The node never went directly from a running state to FINISHED. -/
def NeverCutOff (n : NodeId) (log : List (Event Val Env)) : Prop :=
  ∀ a o, .trans n a .finished o ∈ log → ¬ Running a

/-- The values reported as assigned by a node. -/
def assignsOf (n : NodeId) (l : List (Event Val Env)) : List Val :=
  l.filterMap fun
    | .assign m v => if m = n then some v else none
    | _ => none

def retractsOf (n : NodeId) (l : List (Event Val Env)) : List Val :=
  l.filterMap fun
    | .retract m v => if m = n then some v else none
    | _ => none

/-- What became of the commands of a node: `some args` executed, `none` denied. -/
def commandsOf (n : NodeId) (l : List (Event Val Env)) : List (Option Val) :=
  l.filterMap fun
    | .command m v => if m = n then some (some v) else none
    | .deny m => if m = n then some none else none
    | _ => none

def abortsOf (n : NodeId) (l : List (Event Val Env)) : List Unit :=
  l.filterMap fun
    | .abort m => if m = n then some () else none
    | _ => none

def updatesOf (n : NodeId) (l : List (Event Val Env)) : List Val :=
  l.filterMap fun
    | .update m v => if m = n then some v else none
    | _ => none

/-- The value of variable `v` according to the reported events, starting from `x`: assignments and retractions of nodes whose
variable it is, and initialisation when the node declaring it starts. -/
def replay (P : Plan Val Env) (v : Nat) : List (Event Val Env) → Val → Val
  | [], x => x
  | .assign n y :: rest, x => replay P v rest (if (P.node n).dest = v then y else x)
  | .retract n y :: rest, x => replay P v rest (if (P.node n).dest = v then y else x)
  | .start n o :: rest, x => replay P v rest (if v ∈ (P.node n).locals.map Prod.fst then o.vars v else x)
  | _ :: rest, x => replay P v rest x

/-- What may happen from a state on: any number of steps. -/
inductive Continues (P : Plan Val Env) : Phase × St Val Env → Phase × St Val Env → Prop
  | refl (x) : Continues P x x
  | step {x y z} : Continues P x y → Step P y z → Continues P x z

/-- Any number of iterations of the check loop of a micro step (`PlexilExec.cc:291-309`). -/
inductive CheckPhase (P : Plan Val Env) : St Val Env → St Val Env → Prop
  | refl (s) : CheckPhase P s s
  | step {s t n rest} : CheckPhase P s t → t.cand = n :: rest → CheckPhase P s (checkOne P n { t with cand := rest })

/-- Any number of iterations of the transition loop of a micro step (`PlexilExec.cc:343-352`). -/
inductive TransPhase (P : Plan Val Env) : St Val Env → St Val Env → Prop
  | refl (s) : TransPhase P s s
  | step {s t n rest} : TransPhase P s t → t.change = n :: rest → TransPhase P s (transOne P n { t with change := rest })

/-- A complete micro step: all candidates are checked, resources are given out, all transitions are made. -/
def MicroStep (P : Plan Val Env) (s s' : St Val Env) : Prop :=
  ∃ t, CheckPhase P s t ∧ t.cand = [] ∧ (resolve P t).change ≠ [] ∧ TransPhase P (resolve P t) s' ∧ s'.change = []

/-- State, outcome and failure type of a node after a synchronous step from situation `o`, where every node looks at `o` only. A node
that starts over (ITERATION_ENDED to WAITING, or leaving FINISHED) has its results cleared. -/
def synchronousNext (P : Plan Val Env) (o : Obs Val Env) (n : NodeId) : NState × Outcome × Failure :=
  match decideNext P o n with
  | none => (o.st n, o.out n, o.fail n)
  | some d =>
    (d.state,
     if d.outcome ≠ .none then d.outcome
     else if (o.st n = .iterationEnded ∧ d.state = .waiting) ∨ o.st n = .finished then .none else o.out n,
     if d.outcome ≠ .none ∧ d.failure ≠ .none then d.failure
     else if (o.st n = .iterationEnded ∧ d.state = .waiting) ∨ o.st n = .finished then .none else o.fail n)

/-- One change of the queue: a node goes in behind all nodes that are at least as urgent and before all others, or nodes go out. -/
inductive QueueMove (P : Plan Val Env) : List NodeId → List NodeId → Prop
  | keep {l l'} : l'.Sublist l → QueueMove P l l'
  | insert {l1 l2} (n) : (∀ m ∈ l1, (P.node m).priority ≤ (P.node n).priority) → (∀ m ∈ l2, (P.node n).priority < (P.node m).priority) →
      QueueMove P (l1 ++ l2) (l1 ++ n :: l2)

/-- Most urgent first. -/
def Sorted (P : Plan Val Env) (l : List NodeId) : Prop := l.Pairwise fun a b => (P.node a).priority ≤ (P.node b).priority

end Verif.Exec
