import Verif.Text.Model
set_option autoImplicit false
/-!
Model of the reports to listeners: `/repo/src/app-framework/ExecListenerHub.cc`, `/repo/src/app-framework/ExecListener.cc`, `/repo/src/app-framework/ListenerFilters.cc`,
`/repo/src/app-framework/InterfaceSchema.cc`, and the calls in `/repo/src/exec/PlexilExec.cc` and `/repo/src/exec/Assignment.cc`.

Nodes, assignments and plans are of arbitrary types. Not modelled: construction of listeners from XML, `initialize`, `start`, `stop`; what a listener does with a report.
-/
namespace Verif.Listen
open Verif.Text (NState parseState)

/-- `NodeTransition`, `NodeTransition.hh`: the node, the old and the new state. -/
structure Tr (N : Type) where
  node : N
  old : NState
  new : NState
deriving DecidableEq

/-- `ExecListenerFilter`, `ExecListenerFilter.cc:61-101`: which reports pass. -/
structure Filter (N A P : Type) where
  transition : Tr N → Bool := fun _ => true
  assignment : A → Bool := fun _ => true
  plan : P → Bool := fun _ => true

/-- What a listener is told: the `implementNotify…` members, `ExecListener.cc:200-252`. A plan stands for a plan or a library. -/
inductive Report (N A P : Type)
  | transition (t : Tr N)
  | assignment (a : A)
  | plan (p : P)
deriving DecidableEq

/-- `ExecListener`: its filter, if any, and what it was told, in order. `ExecListener.hh`. -/
structure Listener (N A P : Type) where
  filter : Option (Filter N A P)
  told : List (Report N A P) := []

section
variable {N A P : Type}

/-- `notifyOfTransitions`, `implementNotifyNodeTransitions`, `ExecListener.cc:50-53, 200-211`. -/
def Listener.transitions (l : Listener N A P) (ts : List (Tr N)) : Listener N A P :=
  match l.filter with
  | none => { l with told := l.told ++ ts.map .transition }
  | some f => { l with told := l.told ++ (ts.filter f.transition).map .transition }

/-- `notifyOfAssignment`, `ExecListener.cc:86-94`. -/
def Listener.assignment (l : Listener N A P) (a : A) : Listener N A P :=
  match l.filter with
  | none => { l with told := l.told ++ [.assignment a] }
  | some f => if f.assignment a then { l with told := l.told ++ [.assignment a] } else l

/-- `notifyOfAddPlan`, `notifyOfAddLibrary`, `ExecListener.cc:60-78`. -/
def Listener.plan (l : Listener N A P) (p : P) : Listener N A P :=
  match l.filter with
  | none => { l with told := l.told ++ [.plan p] }
  | some f => if f.plan p then { l with told := l.told ++ [.plan p] } else l

/-- `ExecListenerHub`: `m_listeners`, `m_transitions`, `m_assignments`. `ExecListenerHub.hh`. -/
structure Hub (N A P : Type) where
  listeners : List (Listener N A P) := []
  transitions : List (Tr N) := []
  assignments : List A := []

/-- Calls of the hub. `ExecListenerHub.hh:50-100`. -/
inductive Ev (N A P : Type)
  | transitions (ts : List (Tr N))
  | assignment (a : A)
  | plan (p : P)
  | stepComplete
  | addListener (f : Option (Filter N A P))

/-- `stepComplete` for one listener, `ExecListenerHub.cc:107-111`. -/
def Hub.flush (h : Hub N A P) (l : Listener N A P) : Listener N A P :=
  h.assignments.foldl Listener.assignment (l.transitions h.transitions)

/-- The members of the hub. `ExecListenerHub.cc:55-146`. -/
def Hub.step (h : Hub N A P) : Ev N A P → Hub N A P
  | .transitions ts => { h with transitions := h.transitions ++ ts }
  | .assignment a => { h with assignments := h.assignments ++ [a] }
  | .plan p => { h with listeners := h.listeners.map (·.plan p) }
  | .stepComplete => { listeners := h.listeners.map h.flush, transitions := [], assignments := [] }
  | .addListener f => { h with listeners := h.listeners ++ [{ filter := f }] }

/-- A history of calls. `ExecListenerHub.cc`. -/
def Hub.run (h : Hub N A P) (evs : List (Ev N A P)) : Hub N A P := evs.foldl Hub.step h

/-- The calls of one cycle of `PlexilExec::step`: the transitions of each round of the quiescence loop (`PlexilExec.cc:360-369`), the assignments executed and then those
retracted (`PlexilExec.cc:594-606`, `Assignment.cc:143-160`), `stepComplete` (`PlexilExec.cc:387-388`). -/
def cycle (rounds : List (List (Tr N))) (executed retracted : List A) : List (Ev N A P) :=
  rounds.map .transitions ++ executed.map .assignment ++ retracted.map .assignment ++ [.stepComplete]

end

/-- The characters of `static const char * whitespace`, `InterfaceSchema.cc:45`. -/
def isBlank (c : Char) : Bool := c = ' ' || c = '\t' || c = '\n'

/-- The loop of `parseCommaSeparatedArgs`, `InterfaceSchema.cc:48-67`; the first argument bounds the iterations. -/
def argsLoop : Nat → List Char → List (List Char)
  | 0, _ => []
  | n + 1, s =>
    match s.dropWhile isBlank with
    | [] => []
    | c :: r =>
      if ',' ∈ c :: r then ((c :: r).takeWhile (· ≠ ',')) :: argsLoop n (((c :: r).dropWhile (· ≠ ',')).drop 1)
      else [(c :: r).takeWhile (fun x => !isBlank x)]

/-- `parseCommaSeparatedArgs`, `InterfaceSchema.cc:42-69`: every iteration but the last uses up a comma. -/
def parseArgs (s : List Char) : List (List Char) := argsLoop (s.length + 1) s

/-- `m_stateEnabled`, `ListenerFilters.cc:120`, indexed by `NodeState` including `NO_NODE_STATE`. -/
abbrev Enabled := NState → Bool

/-- `m_stateEnabled[parseNodeState(*it)] = b` for all names, `ListenerFilters.cc:73-76, 96-99`. -/
def mark (b : Bool) (e : Enabled) (names : List (List Char)) : Enabled :=
  names.foldl (fun e w => fun x => if x = parseState (String.ofList w) then b else e x) e

/-- `NodeStateFilter::initialize`, `ListenerFilters.cc:63-103`; a missing element has the empty string as its value. `none`: a configuration error. -/
def stateFilter (states ignored : List Char) : Option Enabled :=
  match states, ignored with
  | [], [] => some (fun _ => true)
  | s, [] => some (mark true (fun _ => false) (parseArgs s))
  | [], i => some (mark false (fun _ => true) (parseArgs i))
  | _ :: _, _ :: _ => none

/-- `reportNodeTransition`, `ListenerFilters.cc:106-109`; other reports pass (`ExecListenerFilter.cc:72-101`). -/
def toFilter {N A P : Type} (e : Enabled) : Filter N A P := { transition := fun t => e t.old || e t.new }

end Verif.Listen
