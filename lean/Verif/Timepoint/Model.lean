import Mathlib.Order.Defs.LinearOrder
/-!
Model of node timepoints: `/repo/src/exec/NodeTimepointValue.cc`, `/repo/src/exec/NodeImpl.cc:1478-1581`, `/repo/src/xml-parser/InternalExpressionFactories.cc:155-210`.

Simplifications.  The linked list of timepoints is a list; a time is an element of any type (`double` in the code).  The notification of the subscribers
of a timepoint is recorded in a list (what subscribers then do is the subject of `Notify`).
-/
namespace Verif.Timepoint

/-- `NodeState`, `NodeConstants.hh:47-57` (without `NO_NODE_STATE`, which no node is ever in). -/
inductive St
  | inactive | waiting | executing | iterationEnded | finished | failing | finishing
deriving DecidableEq, Repr

/-- `NodeTimepointValue`: `NodeTimepointValue.hh:150-155`. -/
structure Tp (T : Type) where
  state : St
  isEnd : Bool
  time : T
  known : Bool

/-- `NodeTimepointValue::getValue`, `NodeTimepointValue.cc:94-99`. -/
def Tp.get {T : Type} (p : Tp T) : Option T := if p.known then some p.time else none

/-- The part of a node that timepoints are about: `m_state`, `m_currentStateStartTime`, `m_timepoints` (`NodeImpl.hh`), and which timepoints have notified their subscribers. -/
structure Node (T : Type) where
  state : St
  startTime : T
  tps : List (Tp T)
  published : List (St × Bool)

/-- The constructor of a timepoint, `NodeTimepointValue.cc:46-57` (`zero` is `0.0`). -/
def mkTp {T : Type} (zero : T) (st : St) (isEnd : Bool) : Tp T := ⟨st, isEnd, zero, false⟩

/-- `NodeImpl::ensureTimepoint`, `NodeImpl.cc:1567-1581`. -/
def ensureTimepoint {T : Type} (zero : T) (n : Node T) (st : St) (isEnd : Bool) : Node T :=
  match n.tps.find? (fun p => decide (st = p.state) && decide (isEnd = p.isEnd)) with
  | some _ => n
  | none => { n with tps := mkTp zero st isEnd :: n.tps }

/-- `setValue`, `NodeTimepointValue.cc:117-122`, without the notification. -/
def Tp.set {T : Type} (p : Tp T) (t : T) : Tp T := { p with time := t, known := true }
/-- `reset`, `NodeTimepointValue.cc:124-128`, without the notification. -/
def Tp.reset {T : Type} (p : Tp T) : Tp T := { p with known := false }

/-- The reset loop, `NodeImpl.cc:1504-1511`. -/
def resetAll {T : Type} : List (Tp T) → List (Tp T) × List (St × Bool)
  | [] => ([], [])
  | p :: ps => (p.reset :: (resetAll ps).1, (p.state, p.isEnd) :: (resetAll ps).2)

/-- The update loop, `NodeImpl.cc:1514-1519`. -/
def updateAll {T : Type} (old new : St) (t : T) : List (Tp T) → List (Tp T) × List (St × Bool)
  | [] => ([], [])
  | p :: ps =>
    if (p.state = old ∧ p.isEnd = true) ∨ (p.state = new ∧ p.isEnd = false)
    then (p.set t :: (updateAll old new t ps).1, (p.state, p.isEnd) :: (updateAll old new t ps).2)
    else (p :: (updateAll old new t ps).1, (updateAll old new t ps).2)

/-- `NodeImpl::logTransition`, `NodeImpl.cc:1497-1520`. -/
def logTransition {T : Type} (n : Node T) (t : T) (new : St) : Node T :=
  let n := { n with startTime := t }
  if n.tps.isEmpty then n
  else
    let r := if new = .inactive then resetAll n.tps else (n.tps, [])
    let u := updateAll n.state new t r.1
    { n with tps := u.1, published := n.published ++ r.2 ++ u.2 }

/-- `NodeImpl::setState`, `NodeImpl.cc:1478-1491`: what concerns timepoints. -/
def setState {T : Type} (n : Node T) (new : St) (t : T) : Node T :=
  if new = n.state then n
  else { logTransition n t new with state := new }

/-- The loop of `getStateStartTime`, `NodeImpl.cc:1528-1539` (`dflt` is `-DBL_MAX`). -/
def findStart {T : Type} (dflt : T) (st : St) : List (Tp T) → T
  | [] => dflt
  | p :: ps => if p.state = st ∧ p.isEnd = false then (p.get).getD dflt else findStart dflt st ps

/-- `NodeImpl::getStateStartTime`, `NodeImpl.cc:1522-1540`. -/
def getStateStartTime {T : Type} (dflt : T) (n : Node T) (st : St) : T :=
  if st = n.state then n.startTime else findStart dflt st n.tps

/-- A new node, `NodeImpl.cc:160-215`: inactive, no timepoints. -/
def newNode {T : Type} (zero : T) : Node T := ⟨.inactive, zero, [], []⟩

/-- The references to timepoints in a plan, made while it is loaded: `InternalExpressionFactories.cc:166-208`. -/
def reference {T : Type} (zero : T) (n : Node T) : List (St × Bool) → Node T
  | [] => n
  | k :: ks => reference zero (ensureTimepoint zero n k.1 k.2) ks

/-- A run: the calls of `setState` with the time of the step (`NodeImpl.cc:780-851`), in order. -/
def run {T : Type} (n : Node T) : List (St × T) → Node T
  | [] => n
  | c :: cs => run (setState n c.1 c.2) cs

/-- The value of a reference: that of the timepoint `ensureTimepoint` returned for it. -/
def Node.value {T : Type} (n : Node T) (st : St) (isEnd : Bool) : Option T :=
  match n.tps.find? (fun p => decide (st = p.state) && decide (isEnd = p.isEnd)) with
  | some p => p.get
  | none => none

end Verif.Timepoint
