import Verif.Text.Model
/-
Model of the reports to the viewer.
Source: `/repo/src/interfaces/LuvListener/LuvFormat.cc`, `/repo/src/interfaces/LuvListener/LuvListener.cc`, `/repo/src/interfaces/Sockets/Socket.cpp`; the batches: `/repo/src/app-framework/ExecListenerHub.cc:105-114`.

The XML of a plan is printed by `pugixml`: it is a text. A `send` writes all it is given or fails (a `send` that writes less is taken for complete: `Socket.cpp:206`; not modelled).
-/
set_option autoImplicit false
namespace Verif.Luv
open Verif.Text

/-- `simpleTextElement`, `simpleStartTag`, `endTag`: `LuvFormat.cc:75-95`. -/
def element (tag : String) (inner : List Char) : List Char := '<' :: tag.toList ++ '>' :: inner ++ '<' :: '/' :: tag.toList ++ ['>']

/-- What `formatTransition` looks at in the node: its outcome, failure type, the conditions it has with their values as text (in the order of `ALL_CONDITIONS`), and the names from the root to it.
`LuvFormat.cc:98-105, 124-144, 175-188`. -/
structure Info where
  /-- Outcome. -/
  outcome : Outcome
  /-- Failure type. -/
  failure : Failure
  /-- Conditions: name and value. -/
  conds : List (String × List Char)
  /-- Path. -/
  path : List (List Char)
deriving DecidableEq

/-- `LuvFormat::formatTransition`, `LuvFormat.cc:166-191`. -/
def formatTransition (new : NState) (i : Info) : List Char :=
  element "NodeStateUpdate"
    (element "NodeState" (stateName new).toList ++
      (if i.outcome = .none then [] else element "NodeOutcome" (outcomeName i.outcome).toList) ++
      (if i.failure = .none then [] else element "NodeFailureType" (failureName i.failure).toList) ++
      element "Conditions" (i.conds.flatMap fun c => element c.1 c.2) ++
      element "NodePath" (i.path.flatMap fun n => element "NodeId" n))

/-- `LuvFormat::formatAssignment`, `LuvFormat.cc:200-222`. -/
def formatAssignment (name value : List Char) : List Char :=
  element "Assignment" (element "Variable" (element "VariableName" name) ++ element "Value" value)

/-- `LuvFormat::formatPlanInfo`, `LuvFormat.cc:151-158`. -/
def formatPlanInfo (block : Bool) : List Char := element "PlanInfo" (element "ViewerBlocks" (if block then "true" else "false").toList)

/-- `LuvFormat::formatLibrary`, `LuvFormat.cc:239-246`. -/
def formatLibrary (xml : List Char) : List Char := element "PlexilLibrary" xml

/-- What the listener is notified of. `LuvListener.cc:126-185`. -/
inductive Note where
  | transition (new : NState) (i : Info)
  | assignment (name value : List Char)
  | plan (xml : List Char)
  | library (xml : List Char)
deriving DecidableEq

/-- The messages for a notification: `implementNotifyNodeTransition`, `implementNotifyAddPlan`, `implementNotifyAddLibrary`, `implementNotifyAssignment`: `LuvListener.cc:126-185`. -/
def Note.messages (block : Bool) : Note → List (List Char)
  | .transition s i => [formatTransition s i]
  | .assignment n v => [formatAssignment n v]
  | .plan x => [formatPlanInfo block, x]
  | .library x => [formatPlanInfo block, formatLibrary x]

/-- `LUV_END_OF_MESSAGE`, `LuvFormat.hh:47`. -/
def eom : Char := '\x04'

/-- What is written to the socket for the notifications: `sendMessage`, `LuvListener.cc:243-248`. -/
def stream (block : Bool) (ns : List Note) : List Char := (ns.flatMap (Note.messages block)).flatMap fun m => m ++ [eom]

/-! ### When -/

/-- What happens in a step of the executive: node `n` makes a transition, after which it looks like `i`; or it looks different without a transition (the values of its conditions); or the step is complete.
`PlexilExec.cc:338-388`. -/
inductive Ev (N : Type) where
  | transition (n : N) (new : NState) (i : Info)
  | looks (n : N) (i : Info)
  | complete

/-- `ExecListenerHub::notifyOfTransitions` keeps them, `stepComplete` passes them on (`ExecListenerHub.cc:105-114`); then the listener looks at the nodes (`LuvFormat.cc:166-191`). -/
structure Hub (N : Type) where
  /-- How the nodes look. -/
  look : N → Info
  /-- `m_transitions` -/
  kept : List (N × NState)
  /-- What was formatted. -/
  notes : List Note

/-- One event. `ExecListenerHub.cc:60-78, 105-114`. -/
def Hub.step {N : Type} [DecidableEq N] (h : Hub N) : Ev N → Hub N
  | .transition n s i => { h with look := fun m => if m = n then i else h.look m, kept := h.kept ++ [(n, s)] }
  | .looks n i => { h with look := fun m => if m = n then i else h.look m }
  | .complete => { h with kept := [], notes := h.notes ++ h.kept.map fun t => .transition t.2 (h.look t.1) }

/-! ### The connection -/

/-- The listener: `m_socket` (open or not), `m_block`, `m_ignoreConnectFailure`: `LuvListener.cc:270-274`. -/
structure Conn where
  /-- `m_socket` is not null. -/
  socket : Bool
  /-- `m_block` -/
  block : Bool
  /-- `m_ignoreConnectFailure` -/
  ignore : Bool

/-- `start`, `openSocket`: `LuvListener.cc:104-107, 206-225`. -/
def Conn.start (c : Conn) (connects : Bool) : Conn × Bool :=
  if connects then ({ c with socket := true }, true) else ({ c with socket := false }, c.ignore)

/-- The viewer, as the socket shows it: how many more `send`s will be accepted (`none`: any number), and what the calls of `recv` will return; the empty list: the connection is closed.
`Socket.cpp:204-238`. -/
structure Peer where
  /-- Sends left. -/
  sends : Option Nat
  /-- What comes. -/
  recvs : List (List Char)

/-- A function returns, throws `SocketException`, or is not back yet (the viewer sends nothing and does not close: `stuck`). `Socket.cpp:107-138`. -/
inductive Result where
  | ok
  | thrown
  | stuck
deriving DecidableEq

/-- One `send`. `Socket.cpp:204-207`. -/
def Peer.send (p : Peer) : Option Peer :=
  match p.sends with
  | none => some p
  | some 0 => none
  | some (n + 1) => some { p with sends := some n }

/-- `waitForAck`, `LuvListener.cc:251-261`: only the first character of what a `recv` returned is looked at. `closed`: after the last chunk the viewer closes (else it is silent). -/
def waitForAck (closed : Bool) : List (List Char) → Result × List (List Char)
  | [] => (if closed then .thrown else .stuck, [])
  | s :: rest => if s.head? = some eom then (.ok, rest) else waitForAck closed rest

/-- `sendMessage`, `LuvListener.cc:243-248`: the message and the character that ends it are sent separately. -/
def sendMessage (block closed : Bool) (p : Peer) : Result × Peer :=
  match p.send with
  | none => (.thrown, p)
  | some p =>
    match p.send with
    | none => (.thrown, p)
    | some p =>
      if block then let r := waitForAck closed p.recvs; (r.1, { p with recvs := r.2 })
      else (.ok, p)

/-- The messages of a notification. `LuvListener.cc:126-185`. -/
def sendAll (block closed : Bool) : List (List Char) → Peer → Result × Peer
  | [], p => (.ok, p)
  | _ :: ms, p =>
    match sendMessage block closed p with
    | (.ok, p) => sendAll block closed ms p
    | r => r

/-- A notification: `LuvListener.cc:126-185`. Nothing without a socket. -/
def Conn.notify (c : Conn) (closed : Bool) (n : Note) (p : Peer) : Result × Peer :=
  if c.socket then sendAll c.block closed (n.messages c.block) p else (.ok, p)

end Verif.Luv
