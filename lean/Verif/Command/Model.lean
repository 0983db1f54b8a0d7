import Verif.Arbiter.Model
/-!
Model of the body of command nodes: `/repo/src/intfc/CommandImpl.cc`, `/repo/src/intfc/CommandHandleVariable.cc`, `/repo/src/exec/CommandNode.cc:174-187, 458-536`,
of the body of update nodes `/repo/src/exec/UpdateNode.cc:86-188`, and of the choice of handlers `/repo/src/app-framework/AdapterConfiguration.cc:351-615`.

An `Option` result `none` stands for an exception (PlanError, InterfaceError, failed assertion) that leaves the function.
Not modelled: deletion of expressions (`cleanUp`), parsing, debug output, activation of the subexpressions (C31, C50) – an expression is its value in the
environment of the moment, whether it is active or not.
-/
namespace Verif.Command
open Verif.Arbiter (Request one)

/-- An expression: its value depends on the environment unless `isConstant()` says it does not (`Constant.cc:181-195`, `Alias.cc:76-79`, `ArrayReference.cc:90-93`;
`Expression.cc:59` is false for everything else). -/
structure Ex (Env α : Type) where
  isConst : Bool
  val : Env → α
  const_ok : isConst = true → ∀ e e', val e = val e'

/-- `ResourceSpec`, `CommandImpl.hh:63-108`; `none` = the optional expression is absent, a value `none` = unknown. Amounts in the units of the arbiter model. -/
structure ResSpec (Env : Type) where
  name : Ex Env (Option String)
  priority : Ex Env (Option Int)
  upper : Option (Ex Env (Option Int))
  release : Option (Ex Env (Option Bool))

/-- `ResourceSpec::isConstant`, `CommandImpl.cc:90-101`. -/
def ResSpec.isConst {Env} (r : ResSpec Env) : Bool :=
  if !r.name.isConst then false
  else if !r.priority.isConst then false
  else if (r.upper.map (·.isConst)).getD true = false then false
  else if (r.release.map (·.isConst)).getD true = false then false
  else true

/-- The immutable parts of a `CommandImpl` (`CommandImpl.hh:265-280`): name expression, arguments (a missing `ExprVec` is an empty list), resources (same), and whether
there is a destination. `V` = values, including unknown. -/
structure Def (Env V : Type) where
  name : Ex Env (Option String)
  args : List (Ex Env V)
  res : List (ResSpec Env)
  dest : Bool

/-- `NO_COMMAND_HANDLE`, `CommandHandle.hh:40-52`. -/
def noHandle : Nat := 48
/-- `COMMAND_FAILED`, `CommandHandle.hh:40-52`. -/
def failed : Nat := 52
/-- `COMMAND_DENIED`, `CommandHandle.hh:40-52`. -/
def denied : Nat := 53
/-- `COMMAND_SUCCESS`, `CommandHandle.hh:40-52`. -/
def success : Nat := 54
/-- `COMMAND_INTERFACE_ERROR`, `CommandHandle.hh:40-52`. -/
def interfaceError : Nat := 57
/-- `COMMAND_HANDLE_MAX`, `CommandHandle.hh:40-52`. -/
def handleMax : Nat := 58

/-- The mutable members of `CommandImpl` (`CommandImpl.hh:255-300`). `ackCount`, `abortCount` are the activation counts of `m_ack` and `m_abortComplete`, `abort` the
value of the latter; `failing`: the node's abort-complete condition is active (`CommandNode.cc:458-462`). `sent` logs `publishChange` of `m_ack`, `assigned` the values written to the
destination. -/
structure St (V : Type) where
  handle : Nat := noHandle
  active : Bool := false
  checked : Bool := false
  nameFixed : Bool := false
  argsFixed : Bool := false
  resFixed : Bool := false
  nameConst : Bool := false
  argsConst : Bool := false
  resConst : Bool := false
  name : String := ""
  params : List V := []
  resVals : List Request := []
  ackCount : Nat := 0
  abortCount : Nat := 0
  abort : Bool := false
  failing : Bool := false
  published : Nat := 0
  assigned : List V := []

variable {Env V : Type}

/-- `fixCommandName`, `CommandImpl.cc:364-375`: an unknown name is not reported. -/
def fixName (d : Def Env V) (e : Env) (s : St V) : St V :=
  match d.name.val e with
  | some n => { s with name := n, nameFixed := true }
  | none => s

/-- `fixCommandArgs`, `CommandImpl.cc:379-386`. -/
def fixArgs (d : Def Env V) (e : Env) (s : St V) : St V :=
  { s with params := d.args.map (·.val e), argsFixed := true }

/-- One iteration of the loop of `fixResourceValues`, `CommandImpl.cc:392-415`. -/
def fixResource (e : Env) (r : ResSpec Env) : Option Request := do
  let name ← r.name.val e
  let priority ← r.priority.val e
  let upper ← match r.upper with
    | some x => x.val e
    | none => some one
  let release ← match r.release with
    | some x => x.val e
    | none => some true
  some { name := name, upperBound := upper, priority := priority, release := release }

/-- `fixResourceValues`, `CommandImpl.cc:388-418`. -/
def fixResources (d : Def Env V) (e : Env) (s : St V) : Option (St V) := do
  let rs ← d.res.mapM (fixResource e)
  some { s with resVals := rs, resFixed := true }

/-- `checkConstant`, `CommandImpl.cc:317-362` (the sizing of the vectors is not observable: they are only read after they were filled). -/
def checkConstant (d : Def Env V) (e : Env) (s : St V) : Option (St V) := do
  let s := if d.name.isConst then fixName d e { s with nameConst := true } else s
  let s := { s with argsConst := d.args.all (·.isConst) }
  let s := if s.argsConst then fixArgs d e s else s
  let s := { s with resConst := d.res.all (·.isConst) }
  let s ← if s.resConst then fixResources d e s else some s
  some { s with checked := true }

/-- `SimpleBooleanVariable`'s activation: reset at the first, `SimpleBooleanVariable.cc:79-82`, `Notifier.cc:98-110`. -/
def activateAbort (s : St V) : St V :=
  { s with abort := if s.abortCount = 0 then false else s.abort, abortCount := s.abortCount + 1 }

/-- Constancy is determined at the first activation, `CommandImpl.cc:440-443`. -/
def ensureChecked (d : Def Env V) (e : Env) (s : St V) : Option (St V) :=
  if s.checked then some s else checkConstant d e s

/-- The rest of the activation, `CommandImpl.cc:445-465`. -/
def unfix (s : St V) : St V :=
  let s := if s.nameConst then s else { s with nameFixed := false }
  let s := if s.argsConst then s else { s with argsFixed := false }
  let s := if s.resConst then s else { s with resFixed := false }
  { s with active := true }

/-- `CommandImpl::activate`, `CommandImpl.cc:432-466`. -/
def activate (d : Def Env V) (e : Env) (s : St V) : Option (St V) :=
  if s.active then none
  else (ensureChecked d e (activateAbort { s with handle := noHandle, ackCount := s.ackCount + 1 })).map unfix

/-- `CommandImpl::fixValues`, `CommandImpl.cc:420-430`. -/
def fixValues (d : Def Env V) (e : Env) (s : St V) : Option (St V) :=
  if !s.active then none
  else
    let s := if s.nameFixed then s else fixName d e s
    let s := if s.argsFixed then s else fixArgs d e s
    if s.resFixed then some s else fixResources d e s

/-- `CommandNode::specializedHandleExecution`, `CommandNode.cc:524-530` (the command is then put into the queue of commands to execute). -/
def start (d : Def Env V) (e : Env) (s : St V) : Option (St V) := (activate d e s).bind (fixValues d e)

/-- `setCommandHandle`, `CommandImpl.cc:468-476`. -/
def setHandle (h : Nat) (s : St V) : Option (St V) :=
  if !s.active then some s
  else if h > noHandle ∧ h < handleMax then some { s with handle := h, published := s.published + 1 }
  else none

/-- `returnValue`, `CommandImpl.cc:478-483`. -/
def returnValue (d : Def Env V) (v : V) (s : St V) : St V :=
  if !s.active || !d.dest then s else { s with assigned := s.assigned ++ [v] }

/-- `acknowledgeAbort`, `CommandImpl.cc:485-491`, with `SimpleBooleanVariable::setValue`, `SimpleBooleanVariable.cc:105-111`. -/
def ackAbort (b : Bool) (s : St V) : St V :=
  if !s.active then s
  else if s.abortCount ≠ 0 ∧ s.abort ≠ b then { s with abort := b } else s

/-- `CommandNode::transitionToFailing`, `CommandNode.cc:458-462`: activates the abort-complete condition, which is `m_abortComplete` itself (`:167-171`). -/
def fail (s : St V) : Option (St V) :=
  if s.failing || !s.active then none else some (activateAbort { s with failing := true })

/-- `CommandImpl::deactivate`, `CommandImpl.cc:493-523`. -/
def deactivate (s : St V) : Option (St V) := do
  if !s.active || s.abortCount = 0 || s.ackCount = 0 then none else
  let s := { s with active := false, abortCount := s.abortCount - 1, ackCount := s.ackCount - 1 }
  let s := if s.resConst then s else { s with resFixed := false }
  let s := if s.nameConst then s else { s with nameFixed := false }
  some (if s.argsConst then s else { s with argsFixed := false })

/-- The node leaves the states in which its command is active: `deactivateAbortCompleteCondition` if it was FAILING (`CommandNode.cc:495-498`), then
`specializedDeactivateExecutable` (`:532-536`). -/
def leave (s : St V) : Option (St V) :=
  if s.failing then
    if s.abortCount = 0 then none else deactivate { s with failing := false, abortCount := s.abortCount - 1 }
  else deactivate s

/-- `getCommand`, `CommandImpl.cc:251-255`. -/
def getCommand (s : St V) : Option (String × List V) :=
  if s.nameFixed && s.argsFixed then some (s.name, s.params) else none

/-- `getResourceValues`, `CommandImpl.cc:279-283`. -/
def getResourceValues (s : St V) : Option (List Request) :=
  if s.resFixed then some s.resVals else none

/-- `CommandHandleVariable::getValue`, `CommandHandleVariable.cc:65-74`: what a reference to the command's handle reads. -/
def handleValue (s : St V) : Option Nat :=
  if s.ackCount = 0 then none else if s.handle = noHandle then none else some s.handle

/-- `CommandHandleKnown`, `CommandImpl.cc:148-152`: the node's action-complete condition. -/
def handleKnown (s : St V) : Bool := s.handle != noHandle

/-- `CommandHandleInterruptible`, `CommandNode.cc:48-71`. -/
def interruptible (s : St V) : Bool := s.handle == denied || s.handle == failed || s.handle == interfaceError

/-- What happens to a command: its node starts it, enters FAILING, leaves; responses arrive; expressions elsewhere that refer to its handle are activated and
deactivated. `CommandNode.cc:458-536`, `CommandImpl.cc:529-548`, `CommandHandleVariable.cc`. -/
inductive Ev (Env V : Type)
  | start (e : Env)
  | fail
  | leave
  | ack (h : Nat)
  | ret (v : V)
  | abortAck (b : Bool)
  | watch
  | unwatch

/-- One event, see the functions called. `unwatch`: `Notifier::deactivate`, `Notifier.cc:117-123`. -/
def step (d : Def Env V) (s : St V) : Ev Env V → Option (St V)
  | .start e => start d e s
  | .fail => fail s
  | .leave => leave s
  | .ack h => setHandle h s
  | .ret v => some (returnValue d v s)
  | .abortAck b => some (ackAbort b s)
  | .watch => some { s with ackCount := s.ackCount + 1 }
  | .unwatch => if s.ackCount = 0 then none else some { s with ackCount := s.ackCount - 1 }

/-- A history of a command from its construction (`CommandImpl.cc:200-224`). -/
def run (d : Def Env V) (evs : List (Ev Env V)) : Option (St V) := evs.foldlM (step d) {}

/-- `InterfaceManager::handleCommandAck`, `handleCommandReturn`, `handleCommandAbortAck`, `InterfaceManager.cc:160-240`: what is put into the queue for a response of an
adapter (the command pointer is not null). -/
def enqueued : Ev Env V → Ev Env V
  | .ack h => .ack (if h ≤ noHandle || h ≥ handleMax then interfaceError else h)
  | x => x

/-- The interface: things done by the plan, responses put into the queue by adapters (any thread), the queue processed by the exec. -/
inductive QEv (Env V : Type)
  | plan (x : Ev Env V)
  | post (x : Ev Env V)
  | process

/-- One event at the interface: `InterfaceManager::handleCommand…` (`InterfaceManager.cc:160-240`), `processQueue` (`:455-589`, only the entries of this command: commands share nothing). -/
def qstep (d : Def Env V) (s : St V × List (Ev Env V)) : QEv Env V → Option (St V × List (Ev Env V))
  | .plan x => (step d s.1 x).map (fun t => (t, s.2))
  | .post x => some (s.1, s.2 ++ [enqueued x])
  | .process => (s.2.foldlM (step d) s.1).map (fun t => (t, []))

/-- A history at the interface. `InterfaceManager.cc:160-589`. -/
def qrun (d : Def Env V) (evs : List (QEv Env V)) : Option (St V × List (Ev Env V)) := evs.foldlM (qstep d) ({}, [])

/-- `AdapterConfiguration::executeCommand` as seen by the command, `AdapterConfiguration.cc:506-519`: `throws` = the handler throws an InterfaceError. -/
def executeCommand (throws : Bool) (s : St V) : Option (St V) := if throws then setHandle interfaceError s else some s

/-- `AdapterConfiguration::reportCommandArbitrationFailure`, `AdapterConfiguration.cc:524-528`. -/
def reportDenied (s : St V) : Option (St V) := setHandle denied s

/-- `AdapterConfiguration::invokeAbort`, `AdapterConfiguration.cc:532-544`. -/
def invokeAbort (throws : Bool) (s : St V) : St V := if throws then ackAbort false s else s

/-! ### Updates -/

/-- A `PairValueMap` (`Update.hh:43`, a `SimpleMap`, see C78): assignment of one key. -/
def setPair (m : List (String × V)) (k : String) (v : V) : List (String × V) := (k, v) :: m.filter (fun p => p.1 != k)

/-- `UpdateImpl` (`UpdateNode.cc:86-110`): the value map, the activation count and value of `m_ack`. -/
structure USt (V : Type) where
  pairs : List (String × V) := []
  ackCount : Nat := 0
  ack : Bool := false

/-- The list of pairs as linked by `addPair`, newest first, `UpdateNode.cc:122-128`. -/
def linked (added : List (String × Ex Env V)) : List (String × Ex Env V) := added.foldl (fun l p => p :: l) []

/-- `UpdateImpl::activate`, `UpdateNode.cc:135-143`. -/
def USt.activate (s : USt V) : USt V := { s with ack := if s.ackCount = 0 then false else s.ack, ackCount := s.ackCount + 1 }

/-- `UpdateImpl::fixValues`, `UpdateNode.cc:155-166`. -/
def USt.fix (added : List (String × Ex Env V)) (e : Env) (s : USt V) : USt V :=
  { s with pairs := (linked added).foldl (fun m p => setPair m p.1 (p.2.val e)) s.pairs }

/-- `UpdateImpl::acknowledge`, `UpdateNode.cc:107-112`. -/
def USt.acknowledge (b : Bool) (s : USt V) : USt V := if s.ackCount = 0 then s else { s with ack := b }

/-- `UpdateImpl::deactivate`, or the deactivation of a condition that is or contains `m_ack`, `UpdateNode.cc:145-153`, `Notifier.cc:117-123`. -/
def USt.deactivate (s : USt V) : Option (USt V) := if s.ackCount = 0 then none else some { s with ackCount := s.ackCount - 1 }

/-- Events of an update: its node starts it, goes to FAILING, leaves; a response arrives. -/
inductive UEv (Env : Type)
  | start (e : Env)
  | fail
  | leave
  | ack (b : Bool)

/-- One event. `start`: the end condition, which always contains `m_ack` (`UpdateNode.cc:256-273`), is activated by the transition to EXECUTING, then `specializedHandleExecution`
(`:287-293`). `fail`: `transitionFromExecuting` deactivates the end condition and activates the action-complete condition, which is `m_ack` (`:249-253, 391-404`). `leave`: one of the two conditions
is deactivated, then the update (`:406-409, 466-469, 490-493`). -/
def USt.step (added : List (String × Ex Env V)) (s : USt V) : UEv Env → Option (USt V)
  | .start e => some (USt.fix added e s.activate.activate)
  | .fail => do
    let s ← s.deactivate
    some s.activate
  | .leave => do
    let s ← s.deactivate
    s.deactivate
  | .ack b => some (s.acknowledge b)

/-- A history of an update from its construction. `UpdateNode.cc:86-96`. -/
def USt.run (added : List (String × Ex Env V)) (evs : List (UEv Env)) : Option (USt V) := evs.foldlM (USt.step added) {}

/-! ### Handlers -/

/-- `m_commandMap`, `m_lookupMap` and the default handlers, `AdapterConfiguration.cc:883-895`. `H` = handlers; the constructor installs defaults
(`:109-110`). -/
structure Registry (H : Type) where
  commands : List (String × H) := []
  lookups : List (String × H) := []
  defaultCommand : H
  defaultLookup : H

/-- Registrations, `AdapterConfiguration.cc:351-450`. -/
inductive Reg (H : Type)
  | command (h : H) (names : List String)
  | defaultCommand (h : H)
  | lookup (h : H) (names : List String)
  | defaultLookup (h : H)

/-- `registerCommandHandler`, `setDefaultCommandHandler`, `registerLookupHandler`, `setDefaultLookupHandler`, `AdapterConfiguration.cc:351-450`;
`map[name] = handler` replaces. The variants taking one name are those with a list of one. -/
def Registry.apply {H : Type} (r : Registry H) : Reg H → Registry H
  | .command h names => { r with commands := names.foldl (fun m n => setPair m n h) r.commands }
  | .defaultCommand h => { r with defaultCommand := h }
  | .lookup h names => { r with lookups := names.foldl (fun m n => setPair m n h) r.lookups }
  | .defaultLookup h => { r with defaultLookup := h }

/-- `getCommandHandler`, `AdapterConfiguration.cc:586-597`. -/
def Registry.commandHandler {H : Type} (r : Registry H) (name : String) : H :=
  match r.commands.lookup name with
  | some h => h
  | none => r.defaultCommand

/-- `getLookupHandler`, `AdapterConfiguration.cc:599-611`. -/
def Registry.lookupHandler {H : Type} (r : Registry H) (name : String) : H :=
  match r.lookups.lookup name with
  | some h => h
  | none => r.defaultLookup

end Verif.Command
