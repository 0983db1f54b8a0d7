/-
Model of one plan node: node states, the choice of the next state (`getDestState*`), the bookkeeping of a transition and
the activation of conditions.
Sources: `/repo/src/exec/NodeImpl.cc`, `ListNode.cc`, `AssignmentNode.cc`, `CommandNode.cc`, `UpdateNode.cc`.
A library call node behaves as a list node (`LibraryCallNode.hh`: subclass of `ListNode` overriding only clean-up and name
lookup), so both are `NodeType.list`.
-/
namespace Verif.Node

/-- `PlexilNodeType`, one per node class. `getType()` of `AssignmentNode.hh:65`, `CommandNode.hh:63`, etc. -/
inductive NodeType | empty | assignment | command | update | list
deriving DecidableEq, Repr

/-- `NodeState`, `/repo/src/value/NodeConstants.hh:47-57`. -/
inductive NState | inactive | waiting | executing | iterationEnded | finished | failing | finishing
deriving DecidableEq, Repr

/-- `NodeOutcome`; `none` = NO_OUTCOME. `NodeConstants.hh:93-100`. -/
inductive Outcome | none | success | failure | skipped | interrupted
deriving DecidableEq, Repr

/-- `FailureType`; `none` = NO_FAILURE. `NodeConstants.hh:136-145`. -/
inductive Failure | none | preFailed | postFailed | invFailed | parentFailed | exited | parentExited
deriving DecidableEq, Repr

/-- Value of a condition slot: `none` = null pointer (no such condition), `some none` = unknown. `NodeImpl.hh:836`. -/
abbrev Cond := Option (Option Bool)

/-- `cond && cond->getValue(temp) && temp`. As in `NodeImpl.cc:739-1120`. -/
def isT (c : Cond) : Bool := c == some (some true)
/-- `cond && cond->getValue(temp) && !temp`. As in `NodeImpl.cc:739-1120`. -/
def isF (c : Cond) : Bool := c == some (some false)
/-- `cond && (!cond->getValue(temp) || !temp)`. As in `NodeImpl.cc:739-1120`. -/
def notT (c : Cond) : Bool := c == some (some false) || c == some none

/-- The 13 conditions of a node (`NodeImpl.hh:86-116`), the first three belonging to the parent (`NodeImpl::getCondition`,
`NodeImpl.cc:524-538`). -/
structure Conds where
  ancExit : Cond
  ancInv : Cond
  ancEnd : Cond
  skip : Cond
  start : Cond
  pre : Cond
  exit : Cond
  inv : Cond
  endc : Cond
  post : Cond
  rep : Cond
  actionComplete : Cond
  abortComplete : Cond
deriving DecidableEq, Repr

/-- Result of a successful `getDestState`: `m_nextState` and, if assigned, `m_nextOutcome` and `m_nextFailureType`. `NodeImpl.hh:705-745, 831`. -/
structure Dest where
  state : NState
  outcome : Outcome := .none
  failure : Failure := .none
deriving DecidableEq, Repr

/-- `NodeImpl::getDestStateFromInactive`, `NodeImpl.cc:870-950`. `parent` = state of the parent, `none` for a root. -/
def fromInactive (parent : Option NState) (c : Conds) : Option Dest :=
  match parent with
  | some .finished => some { state := .finished, outcome := .skipped }
  | some .executing =>
    if isT c.ancExit then some { state := .finished, outcome := .skipped }
    else if isF c.ancInv then some { state := .finished, outcome := .skipped }
    else if isT c.ancEnd then some { state := .finished, outcome := .skipped }
    else some { state := .waiting }
  | some _ => none
  | none => some { state := .waiting }

/-- `NodeImpl::getDestStateFromWaiting`, `NodeImpl.cc:983-1085`. -/
def fromWaiting (c : Conds) : Option Dest :=
  if isT c.ancExit then some { state := .finished, outcome := .skipped }
  else if isT c.exit then some { state := .finished, outcome := .skipped }
  else if isF c.ancInv then some { state := .finished, outcome := .skipped }
  else if isT c.ancEnd then some { state := .finished, outcome := .skipped }
  else if isT c.skip then some { state := .finished, outcome := .skipped }
  else if notT c.start then none
  else if notT c.pre then some { state := .iterationEnded, outcome := .failure, failure := .preFailed }
  else some { state := .executing }

/-- The part of the EXECUTING and FINISHING rules common to all classes but `NodeImpl`'s own: abnormal ends go to
FAILING. `AssignmentNode.cc:162-228`, `CommandNode.cc:213-275, 333-395`, `ListNode.cc:465-527, 589-651`,
`UpdateNode.cc:299-361`. -/
def abnormal (c : Conds) : Option Dest :=
  if isT c.ancExit then some { state := .failing, outcome := .interrupted, failure := .parentExited }
  else if isT c.exit then some { state := .failing, outcome := .interrupted, failure := .exited }
  else if isF c.ancInv then some { state := .failing, outcome := .failure, failure := .parentFailed }
  else if isF c.inv then some { state := .failing, outcome := .failure, failure := .invFailed }
  else none

/-- Normal end of an iteration: the post condition decides, `NodeImpl.cc:1206-1216`, `AssignmentNode.cc:242-253`,
`CommandNode.cc:406-417`, `UpdateNode.cc:377-388`, `ListNode.cc:661-675`. -/
def endIteration (c : Conds) : Dest :=
  if notT c.post then { state := .iterationEnded, outcome := .failure, failure := .postFailed }
  else { state := .iterationEnded, outcome := .success }

/-- `getDestStateFromExecuting`: `NodeImpl.cc:1132-1217` (empty), `AssignmentNode.cc:145-254`, `CommandNode.cc:209-293`,
`ListNode.cc:461-545`, `UpdateNode.cc:295-389`. -/
def fromExecuting (t : NodeType) (c : Conds) : Option Dest :=
  match t with
  | .empty =>
    if isT c.ancExit then some { state := .finished, outcome := .interrupted, failure := .parentExited }
    else if isT c.exit then some { state := .iterationEnded, outcome := .interrupted, failure := .exited }
    else if isF c.ancInv then some { state := .finished, outcome := .failure, failure := .parentFailed }
    else if isF c.inv then some { state := .iterationEnded, outcome := .failure, failure := .invFailed }
    else if notT c.endc then none
    else some (endIteration c)
  | .assignment =>
    if isT c.actionComplete then
      match abnormal c with
      | some d => some d
      | none => if notT c.endc then none else some (endIteration c)
    else none
  | .update =>
    match abnormal c with
    | some d => some d
    | none => if notT c.endc then none else some (endIteration c)
  | .command | .list =>
    match abnormal c with
    | some d => some d
    | none => if notT c.endc then none else some { state := .finishing }

/-- `getDestStateFromFinishing`: `CommandNode.cc:329-424`, `ListNode.cc:585-682`; an error for other classes,
`NodeImpl.cc:1425-1430`. -/
def fromFinishing (t : NodeType) (c : Conds) : Option Dest :=
  match t with
  | .command | .list =>
    match abnormal c with
    | some d => some d
    | none => if isT c.actionComplete then some (endIteration c) else none
  | _ => none

/-- `getDestStateFromFailing`: `AssignmentNode.cc:307-343`, `CommandNode.cc:464-499` (abort complete),
`ListNode.cc:731-770`, `UpdateNode.cc:430-464` (action complete); an error for `NodeImpl`, `:1454-1459`. -/
def fromFailing (t : NodeType) (f : Failure) (c : Conds) : Option Dest :=
  let done := match t with
    | .assignment | .command => isT c.abortComplete
    | .list | .update => isT c.actionComplete
    | .empty => false
  if done then
    if f = .parentFailed ∨ f = .parentExited then some { state := .finished } else some { state := .iterationEnded }
  else none

/-- `NodeImpl::getDestStateFromIterationEnded`, `NodeImpl.cc:1269-1341`. -/
def fromIterationEnded (c : Conds) : Option Dest :=
  if isT c.ancExit then some { state := .finished, outcome := .interrupted, failure := .parentExited }
  else if isF c.ancInv then some { state := .finished, outcome := .failure, failure := .parentFailed }
  else if isT c.ancEnd then some { state := .finished }
  else if c.rep = some none then none
  else if isT c.rep then some { state := .waiting }
  else some { state := .finished }

/-- `NodeImpl::getDestStateFromFinished`, `NodeImpl.cc:1387-1401`. -/
def fromFinished (parent : Option NState) : Option Dest :=
  if parent = some .waiting then some { state := .inactive } else none

/-- `NodeImpl::getDestState`, `NodeImpl.cc:739-774`, with the overrides of the node classes. -/
def getDest (t : NodeType) (s : NState) (parent : Option NState) (f : Failure) (c : Conds) : Option Dest :=
  match s with
  | .inactive => fromInactive parent c
  | .waiting => fromWaiting c
  | .executing => fromExecuting t c
  | .finishing => fromFinishing t c
  | .finished => fromFinished parent
  | .failing => fromFailing t f c
  | .iterationEnded => fromIterationEnded c

/-! ## Activation of conditions -/

/-- What is activated and deactivated by transitions: own condition slots, the slots evaluated by the children
(`childExit`, `childInv`, `childEnd`: `m_conditions[ancestor*Idx]` of a list), local variables, and the body
(assignment, command or update object). `(de)activateAncestor*` are empty functions (`NodeImpl.cc:1697-1703, 1763-1769`). -/
inductive Slot | skip | start | pre | exit | inv | endc | post | rep | actionComplete | abortComplete
  | childExit | childInv | childEnd | locals | body
deriving DecidableEq, Repr

/-- One activation (`true`) or deactivation (`false`) call. `NodeImpl.cc:1683-1840`. -/
abbrev Act := Bool × Slot

/-- An `activate…` call, `NodeImpl.cc:1690-1760`. -/
def on (s : Slot) : Act := (true, s)
/-- A `deactivate…` call, `NodeImpl.cc:1763-1840`. -/
def off (s : Slot) : Act := (false, s)

/-- `deactivateExecutable`, `NodeImpl.cc:1863-1867`: the body (`specializedDeactivateExecutable`; none for empty and list
nodes), then local variables. -/
def offExecutable (t : NodeType) : List Act :=
  (match t with | .empty | .list => [] | _ => [off .body]) ++ [off .locals]

/-- The `transitionFrom*` part of `NodeImpl::transition` (`:792-805`) for each class. -/
def fromActs (t : NodeType) (s d : NState) : List Act :=
  match s with
  -- `NodeImpl.cc:953-961`
  | .inactive => []
  -- `NodeImpl.cc:1088-1110` (FINISHED falls through to ITERATION_ENDED)
  | .waiting =>
    [off .skip, off .start, off .pre] ++ (if d = .finished ∨ d = .iterationEnded then [off .exit] else [])
  | .executing =>
    match t with
    -- `NodeImpl.cc:1220-1243`
    | .empty => [off .exit, off .inv, off .endc, off .post] ++ offExecutable t
    -- `AssignmentNode.cc:266-289`
    | .assignment => [off .exit, off .inv, off .endc, off .post, off .actionComplete] ++
        (if d = .iterationEnded then offExecutable t else [])
    -- `UpdateNode.cc:391-416`
    | .update => [off .exit, off .inv, off .endc, off .post] ++
        (if d = .failing then [on .actionComplete] else if d = .iterationEnded then offExecutable t else [])
    -- `CommandNode.cc:295-314` (FAILING falls through to FINISHING)
    | .command => (if d = .failing then [off .exit, off .inv] else []) ++ [off .endc]
    -- `ListNode.cc:547-569` (FAILING falls through to FINISHING)
    | .list => [off .endc] ++ (if d = .failing then [off .exit, off .inv] else []) ++ [on .actionComplete]
  | .finishing =>
    match t with
    -- `CommandNode.cc:426-448`
    | .command => (if d = .iterationEnded then offExecutable t else []) ++ [off .exit, off .inv, off .post, off .actionComplete]
    -- `ListNode.cc:684-714`
    | .list => [off .exit, off .inv, off .post] ++
        (if d = .iterationEnded then [off .childExit, off .childInv, off .childEnd, off .actionComplete] ++ offExecutable t else [])
    | _ => []
  | .failing =>
    match t with
    -- `AssignmentNode.cc:345-366`, `CommandNode.cc:501-522`
    | .assignment | .command => off .abortComplete :: offExecutable t
    -- `UpdateNode.cc:466-487`
    | .update => off .actionComplete :: offExecutable t
    -- `ListNode.cc:772-801`
    | .list => [off .childExit, off .childInv, off .childEnd, off .actionComplete] ++ offExecutable t
    | .empty => []
  -- `NodeImpl.cc:1344-1364`
  | .iterationEnded => [off .rep]
  -- `NodeImpl.cc:1404-1407`
  | .finished => []

/-- The `transitionTo*` part of `NodeImpl::transition` (`:807-819`), and `execute` (`:830-831`), for each class. -/
def toActs (t : NodeType) (d : NState) : List Act :=
  match d with
  | .inactive => []
  -- `NodeImpl.cc:976-980`
  | .waiting => [on .exit, on .skip, on .start, on .pre]
  | .executing =>
    match t with
    -- `NodeImpl.cc:1122-1129`
    | .empty => [on .locals, on .inv, on .endc, on .post]
    -- `AssignmentNode.cc:139-143, 256-264`
    | .assignment => [on .locals, on .inv, on .endc, on .post, on .actionComplete, on .body]
    -- `NodeImpl.cc:1122-1129`, `UpdateNode.cc:287-293`
    | .update => [on .locals, on .inv, on .endc, on .post, on .body]
    -- `CommandNode.cc:200-207, 524-530`
    | .command => [on .locals, on .inv, on .exit, on .endc, on .body]
    -- `ListNode.cc:444-459`
    | .list => [on .locals, on .inv, on .endc, on .childExit, on .childInv, on .childEnd]
  | .finishing =>
    match t with
    -- `CommandNode.cc:323-327`
    | .command => [on .post, on .actionComplete]
    -- `ListNode.cc:580-583`
    | .list => [on .post]
    | _ => []
  | .failing =>
    match t with
    -- `AssignmentNode.cc:300-305`, `CommandNode.cc:458-462`
    | .assignment | .command => [on .abortComplete]
    | _ => []
  -- `NodeImpl.cc:1258-1266`
  | .iterationEnded => [on .rep]
  | .finished => []

/-- All (de)activation calls of one transition, in order. `NodeImpl.cc:780-851`. -/
def acts (t : NodeType) (s d : NState) : List Act := fromActs t s d ++ toActs t d

/-- `Notifier::activate` / `deactivate`, `/repo/src/expr/Notifier.cc:99-122`, on the counter of one slot. `none` = the
assertion "deactivate too many times" fails. Counter overflow is not modelled. -/
def applyAct (a : Act) (m : Slot → Nat) : Option (Slot → Nat) :=
  if a.1 then some (fun x => if x = a.2 then m x + 1 else m x)
  else if m a.2 = 0 then none
  else some (fun x => if x = a.2 then m x - 1 else m x)

/-- A sequence of calls. (`Notifier.cc:100-130`.) -/
def applyActs : List Act → (Slot → Nat) → Option (Slot → Nat)
  | [], m => some m
  | a :: as, m => (applyAct a m).bind (applyActs as)

end Verif.Node
