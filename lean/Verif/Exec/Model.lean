import Verif.Node.Model
/-
Model of the executive: a set of plans and `PlexilExecImpl::step`.
Sources: `/repo/src/exec/PlexilExec.cc`, `NodeImpl.cc`, `ListNode.cc`, `AssignmentNode.cc`, `CommandNode.cc`, `UpdateNode.cc`,
`Assignment.cc`, `/repo/src/expr/Reservable.cc`.

Simplifications, all stated at the definitions concerned:
* queues are lists (justified by C21/C22: `LinkedQueue` and `PriorityQueue` implement lists);
* expressions are arbitrary functions of the observable state `Obs`; the propagation of changes through expressions is the
  arbitrary function `Plan.wake`, saying which nodes are notified when something changes;
* commands: only the exec's side; their handles are part of the environment;
* the time stamps of states are not modelled.
-/
namespace Verif.Exec
open Verif.Node

/-- Node identity. (`Node *`, `Node.hh`.) -/
abbrev NodeId := Nat

/-- `QueueStatus`, `/repo/src/exec/Node.hh`. -/
inductive QStatus | none | check | pending | pendingCheck | pendingTry | pendingTryCheck | transition | transitionCheck | delete
deriving DecidableEq, Repr

/-- What can be reserved: mutexes and variables (`Reservable`). `Reservable.hh:44-94`. -/
inductive Res | mutex (m : Nat) | var (v : Nat)
deriving DecidableEq, Repr

/-- Everything an expression can read. `env` stands for lookups, time, command handles, etc. Node states, outcomes and failures are `NodeVariables.cc`, variables `UserVariable.cc`, acknowledgements `SimpleBooleanVariable.cc`. -/
structure Obs (Val Env : Type) where
  st : NodeId → NState
  out : NodeId → Outcome
  fail : NodeId → Failure
  vars : Nat → Val
  ack : NodeId → Bool
  abort : NodeId → Bool
  env : Env

/-- A condition of a plan: absent, or an expression with known or unknown value. `m_conditions[]`, `NodeImpl.hh:836`. -/
abbrev UCond (Val Env : Type) := Option (Obs Val Env → Option Bool)

/-- The static part of a node. Members of `NodeImpl.hh:824-850` set at construction. -/
structure NodeDef (Val Env : Type) where
  type : NodeType
  /-- Ancestors, parent first; empty for a root (`m_parent`). -/
  anc : List NodeId := []
  children : List NodeId := []
  priority : Int := 0
  /-- `m_usingMutexes`. -/
  mutexes : List Nat := []
  skip : UCond Val Env := none
  start : UCond Val Env := none
  pre : UCond Val Env := none
  exit : UCond Val Env := none
  inv : UCond Val Env := none
  endc : UCond Val Env := none
  post : UCond Val Env := none
  rep : UCond Val Env := none
  /-- Command nodes: "command handle known", "abort complete", "handle says interruptible". -/
  handleKnown : Obs Val Env → Option Bool := fun _ => some false
  abortDone : Obs Val Env → Option Bool := fun _ => some false
  interruptible : Obs Val Env → Option Bool := fun _ => some false
  /-- Local variables with their initialisers. -/
  locals : List (Nat × (Obs Val Env → Val)) := []
  /-- Assignment: variable written. -/
  dest : Nat := 0
  /-- Assignment: right-hand side. Command, update: name and arguments. -/
  rhs : Obs Val Env → Val

/-- Reasons for notifications. `publishChange` at `NodeImpl.cc:850`, `UserVariable.cc:327-340`, `SimpleBooleanVariable.cc`, and the activations of `NodeImpl.cc:1683-1840`. -/
inductive Source
  /-- Activation of expressions and variables by a transition, before the state changes. -/
  | pre (n : NodeId)
  /-- `publishChange` at the end of `transition`, and activation of the node's body. -/
  | post (n : NodeId)
  /-- The variable and acknowledgement of an executed assignment. -/
  | assign (n : NodeId)
  | retract (n : NodeId)
  | ack (n : NodeId)

/-- A plan: its nodes (`NodeImpl.hh`) and, left open, what their expressions do (`Notifier.cc:180-187`). -/
structure Plan (Val Env : Type) where
  node : NodeId → NodeDef Val Env
  /-- Which nodes are notified (`NodeImpl::notifyChanged`), in order. -/
  wake : Source → Obs Val Env → List NodeId
  /-- Effect of activating a command or update body on the environment (its handle is reset, ...). -/
  enter : NodeId → Env → Env := fun _ e => e

/-- What the executive tells the outside world. `ExecListenerBase.hh`, `PlexilExec.cc:594-650`. -/
inductive Event (Val Env : Type)
  /-- A state transition (`notifyOfTransitions`); ghost: what could be observed at the start of the micro step. -/
  | trans (n : NodeId) (a b : NState) (o : Obs Val Env)
  | assign (n : NodeId) (v : Val)
  | retract (n : NodeId) (v : Val)
  | command (n : NodeId) (args : Val)
  | deny (n : NodeId)
  | abort (n : NodeId)
  | update (n : NodeId) (args : Val)
  /-- Ghost: the body of the node starts, in the given situation. -/
  | start (n : NodeId) (o : Obs Val Env)
  /-- End of a macro step (`stepComplete`, `PlexilExec.cc:387-388`); ghost: what can be observed then. -/
  | stepDone (o : Obs Val Env)

/-- Errors reported by `errorMsg`, `checkError` or `checkPlanError`. `NodeImpl.cc:574-691`, `PlexilExec.cc:486-797`. -/
inductive Err
  /-- `notify` on a node awaiting deletion, `NodeImpl.cc:614-618`. -/
  | deleted (n : NodeId)
  /-- `notify` on a node with status QUEUE_PENDING_TRY_CHECK, `NodeImpl.cc:620-623`. -/
  | tryCheck (n : NodeId)
  /-- A mutex is already held by an ancestor, `NodeImpl.cc:652-655`. -/
  | ancestorMutex (n : NodeId)
  /-- Any other "cannot happen" error of the queue protocol. -/
  | internal
deriving DecidableEq, Repr

/-- The state of the executive. `PlexilExec.cc:76-103`, `NodeImpl.hh:824-850`, `Reservable.hh:86-92`. -/
structure St (Val Env : Type) where
  /-- `m_state`, `m_outcome`, `m_failureType`. -/
  st : NodeId → NState
  out : NodeId → Outcome
  fail : NodeId → Failure
  /-- `m_nextState` (`none` = NO_NODE_STATE), `m_nextOutcome`, `m_nextFailureType`. -/
  nx : NodeId → Option NState
  nxO : NodeId → Outcome
  nxF : NodeId → Failure
  /-- `m_queueStatus`. -/
  q : NodeId → QStatus
  /-- Variables and their saved values. -/
  vars : Nat → Val
  saved : Nat → Val
  /-- `m_value` of assignments, fixed arguments of commands and updates. -/
  fixed : NodeId → Val
  /-- `m_ack`, `m_abortComplete` of assignments, `m_ack` of updates. -/
  ack : NodeId → Bool
  abort : NodeId → Bool
  env : Env
  /-- `Reservable::m_holder`, `m_waiters`. -/
  holder : Res → Option NodeId
  waiters : Res → List NodeId
  /-- `m_candidateQueue`, `m_stateChangeQueue`, `m_pendingQueue`. -/
  cand : List NodeId
  change : List NodeId
  pending : List NodeId
  /-- Output queues, holding the nodes the assignments, commands and updates belong to. -/
  asg : List NodeId
  ret : List NodeId
  cmds : List NodeId
  aborts : List NodeId
  upds : List NodeId
  /-- `m_finishedRootNodes`. -/
  fin : List NodeId
  /-- Errors so far. The code throws or aborts at the first one (`Error::handleAssert`, `Error.cc:112-123`); the model records it and
  goes on, so it has at least the executions of the code. -/
  err : List Err
  /-- Ghost: events, oldest first. -/
  log : List (Event Val Env)
  /-- Ghost: what could be observed at the start of the micro step. -/
  base : Obs Val Env

variable {Val Env : Type}

/-- Functional update. (Not in the code: assigning a member, as in `PlexilExec.cc:249-398`.) -/
def set {α β : Type} [DecidableEq α] (f : α → β) (a : α) (b : β) : α → β := fun x => if x = a then b else f x

/-- What expressions can read in a state (`Obs`; `NodeVariables.cc`, `UserVariable.cc`). -/
def St.obs (s : St Val Env) : Obs Val Env := ⟨s.st, s.out, s.fail, s.vars, s.ack, s.abort, s.env⟩

/-! ## Conditions -/

/-- Three-valued or and and, `/repo/src/expr/BooleanOperators.cc` (see C27). -/
def or3 : Option Bool → Option Bool → Option Bool
  | some true, _ => some true
  | _, some true => some true
  | some false, some false => some false
  | _, _ => none

/-- Three-valued and, `/repo/src/expr/BooleanOperators.cc` (see C27). -/
def and3 : Option Bool → Option Bool → Option Bool
  | some false, _ => some false
  | _, some false => some false
  | some true, some true => some true
  | _, _ => none

/-- `ListNode::specializedCreateConditionWrappers`, `ListNode.cc:242-309`: own condition and the parent's, either may be absent. -/
def orC : Cond → Cond → Cond
  | none, b => b
  | a, none => a
  | some a, some b => some (or3 a b)

/-- As `orC`, for invariants: `ListNode.cc:242-309`. -/
def andC : Cond → Cond → Cond
  | none, b => b
  | a, none => a
  | some a, some b => some (and3 a b)

/-- Value of a condition that may be absent: `NodeImpl.hh:836`, read as in `NodeImpl.cc:739-1120`. -/
def evalC (c : UCond Val Env) (o : Obs Val Env) : Cond := c.map (· o)

/-- `AllFinished`, `ListNode.cc:61-73`. -/
def allFinished (o : Obs Val Env) (cs : List NodeId) : Bool := cs.all fun c => o.st c == .finished

/-- `AllWaitingOrFinished`, `ListNode.cc:121-138`. -/
def allWaitingOrFinished (o : Obs Val Env) (cs : List NodeId) : Bool := cs.all fun c => o.st c == .waiting || o.st c == .finished

variable (P : Plan Val Env)

/-- The ancestor conditions seen by node `n`: `NodeImpl::getCondition`, `NodeImpl.cc:540-554` (those of the parent), and how
list nodes combine them with their own, `ListNode.cc:236-334`. For the end condition only an explicit one counts. -/
def ancExit (o : Obs Val Env) (n : NodeId) : Cond :=
  (P.node n).anc.foldr (fun a acc => orC (evalC (P.node a).exit o) acc) none
/-- See `ancExit`: `ListNode.cc:236-334`, `NodeImpl.cc:540-554`. -/
def ancInv (o : Obs Val Env) (n : NodeId) : Cond :=
  (P.node n).anc.foldr (fun a acc => andC (evalC (P.node a).inv o) acc) none
/-- See `ancExit`: `ListNode.cc:236-334`, `NodeImpl.cc:540-554`. -/
def ancEnd (o : Obs Val Env) (n : NodeId) : Cond :=
  (P.node n).anc.foldr (fun a acc => orC (evalC (P.node a).endc o) acc) none

/-- All conditions of a node, with the wrappers and defaults of `specializedCreateConditionWrappers`: `CommandNode.cc:174-187`,
`UpdateNode.cc:256-274`, `ListNode.cc:236-334`; action and abort complete: `AssignmentNode.cc:93-105`, `CommandNode.cc:160-172`,
`UpdateNode.cc:247-254`. (A literal TRUE end condition is not treated specially: the result is the same.) -/
def conds (o : Obs Val Env) (n : NodeId) : Conds :=
  let d := P.node n
  { ancExit := ancExit P o n, ancInv := ancInv P o n, ancEnd := ancEnd P o n,
    skip := evalC d.skip o, start := evalC d.start o, pre := evalC d.pre o, exit := evalC d.exit o, inv := evalC d.inv o,
    endc := match d.type with
      | .list => match d.endc with
        | some c => some (c o)
        | none => some (some (allFinished o d.children))
      | .update => match d.endc with
        | some c => some (and3 (some (o.ack n)) (c o))
        | none => some (some (o.ack n))
      | .command => match d.endc with
        | some c => some (or3 (d.interruptible o) (c o))
        | none => none
      | _ => evalC d.endc o,
    post := evalC d.post o, rep := evalC d.rep o,
    actionComplete := match d.type with
      | .empty => none
      | .assignment | .update => some (some (o.ack n))
      | .command => some (d.handleKnown o)
      | .list => some (some (allWaitingOrFinished o d.children)),
    abortComplete := match d.type with
      | .assignment => some (some (o.abort n))
      | .command => some (d.abortDone o)
      | _ => none }

/-- State of the parent, `none` for a root. `NodeImpl.cc:870-900` (`m_parent->getState()`). -/
def parentState (o : Obs Val Env) (n : NodeId) : Option NState := (P.node n).anc.head?.map o.st

/-- The decision of `getDestState` for node `n`. `NodeImpl.cc:739-774`. -/
def decideNext (o : Obs Val Env) (n : NodeId) : Option Dest :=
  getDest (P.node n).type (o.st n) (parentState P o n) (o.fail n) (conds P o n)

/-- `NodeImpl::getDestState`, `NodeImpl.cc:739-774`: clears `m_nextState` only; the outcome and failure fields are written only
when the rule assigns them. -/
def computeNext (n : NodeId) (s : St Val Env) : St Val Env :=
  match decideNext P s.obs n with
  | none => { s with nx := set s.nx n none }
  | some d =>
    { s with
      nx := set s.nx n (some d.state)
      nxO := if d.outcome = .none then s.nxO else set s.nxO n d.outcome
      nxF := if d.failure = .none then s.nxF else set s.nxF n d.failure }

/-! ## Notification -/

/-- New queue status after `NodeImpl::notify`, `NodeImpl.cc:574-625`. -/
def notifyQ : QStatus → QStatus
  | .none => .check
  | .pending => .pendingCheck
  | .pendingTry => .pendingTryCheck
  | .transition => .transitionCheck
  | q => q

/-- `NodeImpl::notify`, `NodeImpl.cc:574-625`, with `addCandidateNode`, `PlexilExec.cc:403-406`. -/
def notify (n : NodeId) (s : St Val Env) : St Val Env :=
  { s with
    q := set s.q n (notifyQ (s.q n))
    cand := if s.q n = .none then s.cand ++ [n] else s.cand
    err := s.err ++ (if s.q n = .delete then [.deleted n] else if s.q n = .pendingTryCheck then [.tryCheck n] else []) }

/-- `NodeImpl::notifyChanged` (`NodeImpl.cc:574-625`) on several nodes in turn, as `Notifier.cc:180-187` does. -/
def notifyAll (ns : List NodeId) (s : St Val Env) : St Val Env := ns.foldl (fun s n => notify n s) s

/-- `NodeImpl::notifyResourceAvailable`, `NodeImpl.cc:704-732`. -/
def availQ : QStatus → QStatus
  | .pending => .pendingTry
  | .pendingCheck => .pendingTryCheck
  | q => q

/-! ## Resources -/

/-- `Reservable::addWaitingNode`, `Reservable.cc:101-108`. -/
def addWaiter (r : Res) (n : NodeId) (s : St Val Env) : St Val Env :=
  { s with waiters := set s.waiters r (if n ∈ s.waiters r then s.waiters r else s.waiters r ++ [n]) }

/-- `Reservable::removeWaitingNode`, `Reservable.cc:112-121`. -/
def removeWaiter (r : Res) (n : NodeId) (s : St Val Env) : St Val Env :=
  { s with waiters := set s.waiters r ((s.waiters r).erase n) }

/-- `Reservable::acquire`, `Reservable.cc:56-73`. -/
def acquire (r : Res) (n : NodeId) (s : St Val Env) : Bool × St Val Env :=
  match s.holder r with
  | some _ => (false, addWaiter r n s)
  | none => (true, removeWaiter r n { s with holder := set s.holder r (some n) })

/-- `Reservable::release`, `Reservable.cc:78-97`. Each waiter is told once; the order does not matter as only its own status
changes. -/
def release (r : Res) (n : NodeId) (s : St Val Env) : St Val Env :=
  if s.holder r = some n then
    { s with
      holder := set s.holder r none
      q := fun k => if k ∈ s.waiters r then availQ (s.q k) else s.q k }
  else s

/-- The resources a node needs: its mutexes and, for an Assignment, its variable. `NodeImpl.cc:641-691`. -/
def resources (n : NodeId) : List Res :=
  (P.node n).mutexes.map .mutex ++ (if (P.node n).type = .assignment then [.var (P.node n).dest] else [])

/-- `acquiresResources`, `NodeImpl.cc:631-634`, `AssignmentNode.hh:76-79`. -/
def acquiresResources (n : NodeId) : Bool := !(P.node n).mutexes.isEmpty || (P.node n).type == .assignment

/-- The loop over mutexes of `tryResourceAcquisition`, `NodeImpl.cc:645-660`, stopping at the first failure. A mutex held by an
ancestor is a plan error. -/
def acquireMutexes (n : NodeId) : List Nat → St Val Env → Bool × St Val Env
  | [], s => (true, s)
  | m :: ms, s =>
    let r := acquire (.mutex m) n s
    if r.1 then acquireMutexes n ms r.2
    else (false, { r.2 with err := r.2.err ++ (if ∃ h ∈ (P.node n).anc, r.2.holder (.mutex m) = some h then [.ancestorMutex n] else []) })

/-- The clean-up after a failed attempt, `NodeImpl.cc:682-688`. -/
def giveBack (n : NodeId) : List Nat → St Val Env → St Val Env
  | [], s => s
  | m :: ms, s => giveBack n ms (addWaiter (.mutex m) n (release (.mutex m) n s))

/-- `NodeImpl::tryResourceAcquisition`, `NodeImpl.cc:641-691`. -/
def tryAcquire (n : NodeId) (s : St Val Env) : Bool × St Val Env :=
  let ms := (P.node n).mutexes
  let v := Res.var (P.node n).dest
  let r := acquireMutexes P n ms s
  let r := if (P.node n).type = .assignment then
      (if r.1 then acquire v n r.2 else (false, addWaiter v n r.2))
    else r
  if r.1 then r else (false, giveBack n ms r.2)

/-- `releaseResourceReservations`, `NodeImpl.cc:696-702`, `AssignmentNode.cc:120-124`. -/
def releaseReservations (n : NodeId) (s : St Val Env) : St Val Env :=
  (resources P n).foldl (fun s r => removeWaiter r n s) s

/-! ## Queues of the executive -/

/-- `addStateChangeNode`, `PlexilExec.cc:689-734`. -/
def addStateChange (n : NodeId) (s : St Val Env) : St Val Env :=
  if s.q n = .none then { s with q := set s.q n .transition, change := s.change ++ [n] } else { s with err := s.err ++ [.internal] }

/-- `PriorityQueue::insert`: before the first node of strictly greater priority number (see C13). `LinkedQueue.hh`, class `PriorityQueue`; `PlexilExec.cc:57-64, 83`. -/
def insertPending (n : NodeId) : List NodeId → List NodeId
  | [] => [n]
  | m :: rest => if (P.node n).priority < (P.node m).priority then n :: m :: rest else m :: insertPending n rest

/-- `addPendingNode`, `PlexilExec.cc:738-745`. -/
def addPending (n : NodeId) (s : St Val Env) : St Val Env :=
  { s with q := set s.q n .pendingTry, pending := insertPending P n s.pending }

/-- `removePendingNode`, `PlexilExec.cc:751-756`. -/
def removePending (n : NodeId) (s : St Val Env) : St Val Env :=
  releaseReservations P n { s with pending := s.pending.erase n, q := set s.q n .none }

/-- The body of the check loop of `step`, `PlexilExec.cc:291-309`; the candidate has been popped. -/
def checkOne (n : NodeId) (s : St Val Env) : St Val Env :=
  let s := computeNext P n { s with q := set s.q n .none }
  match s.nx n with
  | none => s
  | some d => if d = .executing ∧ acquiresResources P n = true then addPending P n s else addStateChange n s

/-- `resourceCheckEligible`, `PlexilExec.cc:486-542`. The `Bool × Bool` is (eligible, removed from the pending queue). -/
def eligible (n : NodeId) (s : St Val Env) : Bool × Bool × St Val Env :=
  match s.q n with
  | .pendingCheck =>
    let s := computeNext P n s
    match s.nx n with
    | none =>
      let s := removePending P n s
      (false, true, { s with q := set s.q n .pending })
    | some d =>
      if d ≠ .executing then
        let s := addStateChange n (removePending P n s)
        (false, true, { s with q := set s.q n .pending })
      else (false, false, { s with q := set s.q n .pending })
  | .pendingTryCheck =>
    let s := computeNext P n s
    match s.nx n with
    | none => (false, true, removePending P n s)
    | some d =>
      if d ≠ .executing then (false, true, addStateChange n (removePending P n s))
      else (true, false, s)
  | .pendingTry => (true, false, s)
  | .pending => (false, false, s)
  | _ => (false, false, { s with err := s.err ++ [.internal] })

/-- The inner `do` loop of `resolveResourceConflicts`, `PlexilExec.cc:557-563`, over the rest `l` of the pending queue:
returns the eligible nodes of priority `prio`, and where the next group starts. After a node has been removed from the queue its `next`
pointer is null (`LinkedQueue.hh:225`), so the traversal ends there. -/
def collect (prio : Int) : List NodeId → St Val Env → List NodeId × List NodeId × St Val Env
  | [], s => ([], [], s)
  | n :: rest, s =>
    if (P.node n).priority = prio then
      let r := eligible P n s
      if r.2.1 then ([], [], r.2.2)
      else
        let t := collect prio rest r.2.2
        (if r.1 then n :: t.1 else t.1, t.2.1, t.2.2)
    else ([], n :: rest, s)

/-- The acquisition loop of `resolveResourceConflicts`, `PlexilExec.cc:574-586`. -/
def acquireGroup : List NodeId → St Val Env → St Val Env
  | [], s => s
  | n :: ns, s =>
    let r := tryAcquire P n s
    acquireGroup ns (if r.1 then addStateChange n (removePending P n r.2) else { r.2 with q := set r.2.q n .pending })

theorem collect_length (prio : Int) (l : List NodeId) (s : St Val Env) : (collect P prio l s).2.1.length ≤ l.length := by
  induction l generalizing s with
  | nil => simp [collect]
  | cons n rest ih =>
    simp only [collect]
    split
    · split
      · simp
      · exact Nat.le_succ_of_le (ih _)
    · simp

/-- The outer loop of `resolveResourceConflicts`, `PlexilExec.cc:546-591`, from the queue position whose rest is `l`.
(The `do` loop always visits the head of the group, whose priority is the group's.) -/
def resolveFrom : List NodeId → St Val Env → St Val Env
  | [], s => s
  | n :: rest, s =>
    let t := collect P (P.node n).priority (n :: rest) s
    resolveFrom t.2.1 (acquireGroup P t.1 t.2.2)
termination_by l => l.length
decreasing_by
  simp only [collect, if_true]
  split
  · simp
  · have := collect_length P (P.node n).priority rest (eligible P n s).2.2
    simp only [List.length_cons]
    omega

/-- `resolveResourceConflicts`, `PlexilExec.cc:546-591`. -/
def resolve (s : St Val Env) : St Val Env := resolveFrom P s.pending s

/-! ## Transition -/

/-- `addFinishedRootNode`, `PlexilExec.cc:773-797`. -/
def addFinishedRoot (n : NodeId) (s : St Val Env) : St Val Env :=
  if s.q n = .check ∨ s.q n = .none then
    { s with cand := if s.q n = .check then s.cand.erase n else s.cand, q := set s.q n .delete, fin := s.fin ++ [n] }
  else if s.q n = .delete then s
  else { s with err := s.err ++ [.internal] }

/-- Initialisation of local variables, `NodeImpl::activateLocalVariables`, `NodeImpl.cc:1824-1830`, `UserVariable.cc:231-243`.
(Deactivated variables keep their value; that they read as unknown is not modelled.) -/
def initLocals : List (Nat × (Obs Val Env → Val)) → St Val Env → St Val Env
  | [], s => s
  | (v, f) :: rest, s => initLocals rest { s with vars := set s.vars v (f s.obs) }

/-- `NodeImpl::reset`, `NodeImpl.cc:1853-1860`, called by `transitionFromIterationEnded` (to WAITING) and `transitionFromFinished`. -/
def resetNode (n : NodeId) (s : St Val Env) : St Val Env := { s with out := set s.out n .none, fail := set s.fail n .none }

/-- Release of a list of mutexes. `NodeImpl.cc:1258-1266`. -/
def releaseAll (n : NodeId) (rs : List Res) (s : St Val Env) : St Val Env := rs.foldl (fun s r => release r n s) s

/-- The part of `transitionFrom*` that is not (de)activation of conditions. `NodeImpl.cc:1853-1860` and its callers. -/
def transFrom (n : NodeId) (a b : NState) (s : St Val Env) : St Val Env :=
  if (a = .iterationEnded ∧ b = .waiting) ∨ a = .finished then resetNode n s else s

/-- The resources released by a transition, in order: `NodeImpl.cc:1258-1266, 1377-1384`,
`AssignmentNode.cc:377-384, 397-404`. -/
def released (n : NodeId) (a b : NState) : List Res :=
  let v := if (P.node n).type = .assignment then [Res.var (P.node n).dest] else []
  let ms := (P.node n).mutexes.map Res.mutex
  if b = .iterationEnded then (if a ≠ .waiting then v ++ ms else [])
  else if b = .finished then (if a = .failing then v else []) ++ (if a = .waiting then ms else [])
  else []

/-- The part of `transitionTo*` that is not (de)activation of conditions: locals and acknowledgements when starting
(`NodeImpl.cc:1122-1129`, `SimpleBooleanVariable.cc:84-87`), retraction and abort when failing (`AssignmentNode.cc:300-305`,
`CommandNode.cc:458-462`), release of resources. -/
def transTo (n : NodeId) (a b : NState) (s : St Val Env) : St Val Env :=
  let s := match b with
    | .executing => initLocals (P.node n).locals { s with ack := set s.ack n false }
    | .failing =>
      match (P.node n).type with
      | .assignment => { s with abort := set s.abort n false, ret := s.ret ++ [n] }
      | .command => { s with aborts := s.aborts ++ [n] }
      | _ => s
    | _ => s
  releaseAll n (released P n a b) s

/-- The children notified by `ListNode::setState`, `ListNode.cc:406-427`. -/
def childrenToNotify (n : NodeId) (b : NState) (s : St Val Env) : List NodeId :=
  if (P.node n).type = .list then
    match b with
    | .waiting => (P.node n).children.filter fun c => s.st c == .finished
    | .executing | .finished => (P.node n).children.filter fun c => s.st c == .inactive
    | _ => []
  else []

/-- `NodeImpl::setState`, `NodeImpl.cc:1478-1491`, and `ListNode::setState`, `ListNode.cc:406-427`. -/
def setState (n : NodeId) (b : NState) (s : St Val Env) : St Val Env :=
  let s := { s with st := set s.st n b, log := s.log ++ [.trans n (s.st n) b s.base] }
  let s := if b = .finished ∧ (P.node n).anc = [] then addFinishedRoot n s else notify n s
  notifyAll (childrenToNotify P n b s) s

/-- Setting outcome and failure type, `NodeImpl.cc:823-827`. -/
def setOutcome (n : NodeId) (s : St Val Env) : St Val Env :=
  { s with
    out := if s.nxO n = .none then s.out else set s.out n (s.nxO n)
    fail := if s.nxO n = .none ∨ s.nxF n = .none then s.fail else set s.fail n (s.nxF n) }

/-- Activation of a command or update, `CommandNode.cc:527`, `UpdateNode.cc:290`; ghost: the start of the body is recorded. -/
def activateBody (n : NodeId) (s : St Val Env) : St Val Env :=
  let s : St Val Env :=
    { s with env := if (P.node n).type = NodeType.command ∨ (P.node n).type = NodeType.update then P.enter n s.env else s.env }
  { s with log := s.log ++ [.start n s.obs] }

/-- `execute`, `NodeImpl.cc:1840-1851`, `AssignmentNode.cc:256-264` with `Assignment::fixValue` (`Assignment.cc:122-126`),
`CommandNode.cc:524-530`, `UpdateNode.cc:287-293`. -/
def execBody (n : NodeId) (s : St Val Env) : St Val Env :=
  let s := activateBody P n s
  match (P.node n).type with
  | .assignment =>
    { s with saved := set s.saved (P.node n).dest (s.vars (P.node n).dest), fixed := set s.fixed n ((P.node n).rhs s.obs),
             asg := s.asg ++ [n] }
  | .command => { s with fixed := set s.fixed n ((P.node n).rhs s.obs), cmds := s.cmds ++ [n] }
  | .update => { s with fixed := set s.fixed n ((P.node n).rhs s.obs), upds := s.upds ++ [n] }
  | _ => s

/-- `NodeImpl::transition`, `NodeImpl.cc:780-851`. -/
def transition (n : NodeId) (s : St Val Env) : St Val Env :=
  match s.nx n with
  | none => { s with err := s.err ++ [.internal] }
  | some b =>
    let a := s.st n
    if b = a then s else
    let s := transFrom n a b s
    let s := transTo P n a b s
    let s := notifyAll (P.wake (.pre n) s.obs) s
    let s := setState P n b s
    let s := setOutcome n s
    let s := if b = .executing then execBody P n s else s
    let s := { s with nx := set s.nx n none, nxO := set s.nxO n .none, nxF := set s.nxF n .none }
    notifyAll (P.wake (.post n) s.obs) s

/-- `getStateChangeNode` and `transition`, `PlexilExec.cc:343-352, 673-685`; the node has been popped. -/
def transOne (n : NodeId) (s : St Val Env) : St Val Env :=
  let was := s.q n
  let s := { s with q := set s.q n .none }
  transition P n (if was = .transitionCheck then notify n s else s)

/-! ## End of a macro step -/

/-- `Assignment::execute`, `Assignment.cc:142-149`. The acknowledgement only counts while it is active, i.e. in EXECUTING. -/
def assignExec (s : St Val Env) (n : NodeId) : St Val Env :=
  let v := s.fixed n
  let s := { s with vars := set s.vars (P.node n).dest v, ack := if s.st n = .executing then set s.ack n true else s.ack,
                    log := s.log ++ [.assign n v] }
  notifyAll (P.wake (.assign n) s.obs) s

/-- `Assignment::retract`, `Assignment.cc:151-160`. -/
def assignRetract (s : St Val Env) (n : NodeId) : St Val Env :=
  let v := s.saved (P.node n).dest
  let s := { s with vars := set s.vars (P.node n).dest v, abort := if s.st n = .failing then set s.abort n true else s.abort,
                    log := s.log ++ [.retract n v] }
  notifyAll (P.wake (.retract n) s.obs) s

/-- `performAssignments`, `PlexilExec.cc:594-606`. -/
def performAssignments (s : St Val Env) : St Val Env :=
  let s := s.asg.foldl (assignExec P) s
  let s := { s with asg := [] }
  let s := s.ret.foldl (assignRetract P) s
  { s with ret := [] }

/-- `executeOutboundQueue`, `PlexilExec.cc:610-650`, where the arbiter has split the commands into accepted and rejected
(C17-C20 are about the arbiter). Adapters answer through a queue, i.e. by later external events. -/
def outbound (accepted rejected : List NodeId) (s : St Val Env) : St Val Env :=
  { s with
    cmds := [], aborts := [], upds := []
    log := s.log ++ accepted.map (fun n => Event.command n (s.fixed n)) ++ rejected.map Event.deny ++
      s.aborts.map Event.abort ++ s.upds.map (fun n => Event.update n (s.fixed n)) }

/-- `PlexilExec.cc:385-388`. -/
def finishStep (accepted rejected : List NodeId) (s : St Val Env) : St Val Env :=
  let s := outbound accepted rejected (performAssignments P s)
  { s with log := s.log ++ [.stepDone s.obs] }

/-- The loop condition of `step` apart from the candidate queue, `PlexilExec.cc:376-379`. -/
def noOutput (s : St Val Env) : Prop := s.asg = [] ∧ s.ret = [] ∧ s.cmds = [] ∧ s.aborts = []

/-! ## Executions -/

/-- Where `PlexilExecImpl::step` (`PlexilExec.cc:249-398`) is: outside, in the loop checking conditions (`272-310`), or in the loop of transitions (`330-374`). -/
inductive Phase | idle | check | trans
deriving DecidableEq, Repr

/-- `UpdateImpl::acknowledge`: counts only while the update is active. `UpdateNode.cc:111-120`. -/
def ackUpdate (n : NodeId) (s : St Val Env) : St Val Env :=
  if (P.node n).type = .update ∧ (s.st n = .executing ∨ s.st n = .failing) then
    let s := { s with ack := set s.ack n true }
    notifyAll (P.wake (.ack n) s.obs) s
  else s

/-- One step of an execution. Between macro steps (`idle`) the environment may change arbitrarily, notifying any nodes (also how
roots are first notified by `addPlan`, `PlexilExec.cc:182-190`). -/
inductive Step : Phase × St Val Env → Phase × St Val Env → Prop
  | ext (s : St Val Env) (e : Env) (ns : List NodeId) : Step (.idle, s) (.idle, notifyAll ns { s with env := e })
  | ackUpd (s : St Val Env) (n : NodeId) : Step (.idle, s) (.idle, ackUpdate P n s)
  /-- `deleteFinishedPlans`, `PlexilExec.cc:224-237`. -/
  | deletePlans (s : St Val Env) : Step (.idle, s) (.idle, { s with fin := [] })
  | begin (s : St Val Env) : Step (.idle, s) (.check, { s with base := s.obs })
  | check (s : St Val Env) (n : NodeId) (rest : List NodeId) : s.cand = n :: rest →
      Step (.check, s) (.check, checkOne P n { s with cand := rest })
  /-- `PlexilExec.cc:312-320`. -/
  | resolve (s : St Val Env) : s.cand = [] → (resolve P s).change ≠ [] → Step (.check, s) (.trans, resolve P s)
  | trans (s : St Val Env) (n : NodeId) (rest : List NodeId) : s.change = n :: rest →
      Step (.trans, s) (.trans, transOne P n { s with change := rest })
  /-- The loop goes on, `PlexilExec.cc:376-380`. -/
  | again (s : St Val Env) : s.change = [] → noOutput s → s.cand ≠ [] →
      Step (.trans, s) (.check, { s with base := s.obs })
  /-- The loop ends because nothing can change state, `PlexilExec.cc:322-323`, or by its condition. -/
  | finishQuiet (s : St Val Env) (acc rej : List NodeId) : s.cand = [] → (Exec.resolve P s).change = [] →
      (acc ++ rej).Perm s.cmds → Step (.check, s) (.idle, finishStep P acc rej (Exec.resolve P s))
  | finish (s : St Val Env) (acc rej : List NodeId) : s.change = [] → ¬ (noOutput s ∧ s.cand ≠ []) →
      (acc ++ rej).Perm s.cmds → Step (.trans, s) (.idle, finishStep P acc rej s)

/-- The initial state: all nodes INACTIVE, nothing queued. `NodeImpl.cc` constructors, `PlexilExec.cc:107-127`. -/
def init (vars : Nat → Val) (env : Env) : St Val Env where
  st := fun _ => .inactive
  out := fun _ => .none
  fail := fun _ => .none
  nx := fun _ => none
  nxO := fun _ => .none
  nxF := fun _ => .none
  q := fun _ => .none
  vars := vars
  saved := vars
  fixed := fun _ => vars 0
  ack := fun _ => false
  abort := fun _ => false
  env := env
  holder := fun _ => none
  waiters := fun _ => []
  cand := []
  change := []
  pending := []
  asg := []
  ret := []
  cmds := []
  aborts := []
  upds := []
  fin := []
  err := []
  log := []
  base := ⟨fun _ => .inactive, fun _ => .none, fun _ => .none, vars, fun _ => false, fun _ => false, env⟩

/-- Reachable states. Any sequence of calls of the interface of `PlexilExec.hh`. -/
inductive Reach : Phase → St Val Env → Prop
  | init (vars : Nat → Val) (env : Env) : Reach .idle (init vars env)
  | step {ph ph' s s'} : Reach ph s → Step P (ph, s) (ph', s') → Reach ph' s'

end Verif.Exec
