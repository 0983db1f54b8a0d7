import Verif.Text.Model
/-
Model of TestExec, the program that runs a plan against a script.
Source: `/repo/src/apps/TestExec/TestExternalInterface.cc`.

The script is read already (the values in it: `Script/ValueModel.lean`). The executive is any program that is told things, is started for a step, and during the step asks the interface for things.
`checkError` and `assertTrueMsg` throw, and the exception ends the program (`exec-test-runner.cc:445` does not catch it). A `std::map` is a function to `Option` (its order: C77).
-/
set_option autoImplicit false
namespace Verif.Script
open Verif.Text (Handle)

/-- `State`, `/repo/src/intfc/State.hh`: a name and parameters; names a state of the world, or a command. -/
structure State (V : Type) where
  /-- Name. -/
  name : String
  /-- Parameters. -/
  params : List V
deriving DecidableEq

/-- What the interface tells the executive: `StateCache::lookupReturn`, `LookupReceiver::update`, `commandHandleReturn`, `commandReturn`, `commandAbortAcknowledge`, `Update::acknowledge`
(`TestExternalInterface.cc:162, 177, 190, 208, 229, 240, 511, 537-549, 564`). `none` is the unknown value. -/
inductive Tell (V C U : Type) where
  | value (st : State V) (v : Option V)
  | handle (c : C) (h : Handle)
  | result (c : C) (v : Option V)
  | abortAck (c : C) (b : Bool)
  | updateAck (u : U)

/-- What the executive asks of the interface, `Dispatcher.hh`: the functions `lookupNow`, `executeCommand` (with `isReturnExpected`), `reportCommandArbitrationFailure`, `invokeAbort`, `executeUpdate`. -/
inductive Ask (V C U : Type) where
  | lookup (st : State V)
  | execute (c : C) (st : State V) (ret : Bool)
  | deny (c : C)
  | abort (c : C) (st : State V)
  | update (u : U) (node : String)

/-- A plan file for `SendPlan`: the tag of its document element, and the tags of that element's children with the plan each of them is, if it is one. `TestExternalInterface.cc:244-267`. -/
structure PlanFile (P : Type) where
  /-- Tag of the document element. -/
  root : String
  /-- Its children. -/
  kids : List (String × Option P)

/-- One thing to do, from the script: `State`, `Command`, `CommandAck`, `CommandAbort`, `UpdateAck`, `SendPlan`, text and `Delay`, anything else. `TestExternalInterface.cc:84-135`. -/
inductive Item (V P : Type) where
  | value (st : State V) (v : Option V)
  | result (st : State V) (v : Option V)
  | ack (st : State V) (h : Handle)
  /-- `none`: the value is not Boolean, or unknown. -/
  | abortAck (st : State V) (b : Option Bool)
  | updateAck (node : String)
  | sendPlan (f : PlanFile P)
  | nothing
  | bad

/-- An element of the script: one thing, or several of them in `Simultaneous`. `TestExternalInterface.cc:84-135`. -/
inductive Elem (V P : Type) where
  | one (i : Item V P)
  | simultaneous (l : List (Item V P))

/-- `handleSimultaneous`, `TestExternalInterface.cc:269-307`: it does not know `SendPlan`. -/
def inside {V P : Type} : Item V P → Item V P
  | .sendPlan _ => .bad
  | i => i

/-- The things to do for an element. `TestExternalInterface.cc:84-135, 269-307`. -/
def Elem.items {V P : Type} : Elem V P → List (Item V P)
  | .one i => [i]
  | .simultaneous l => l.map inside

variable {V C U P : Type} [DecidableEq V]

/-- The members of `TestExternalInterface`, `TestExternalInterface.hh:88-92`. -/
structure Tables (V C U : Type) where
  /-- `m_waitingUpdates` -/
  updates : String → Option U
  /-- `m_executingCommands` -/
  executing : State V → Option C
  /-- `m_commandAcks` -/
  acks : State V → Option C
  /-- `m_abortingCommands` -/
  aborting : State V → Option C
  /-- `m_states` -/
  states : State V → Option (Option V)

/-- `map[k] = v`, `map.erase`. -/
def put {K α : Type} [DecidableEq K] (m : K → Option α) (k : K) (v : Option α) : K → Option α := fun x => if x = k then v else m x

/-- `State::timeState`, `/repo/src/intfc/State.cc`. -/
def timeState : State V := ⟨"time", []⟩

/-- The constructor, `TestExternalInterface.cc:68-73`; `zero` is the value 0.0. -/
def Tables.init (zero : V) : Tables V C U :=
  { updates := fun _ => none, executing := fun _ => none, acks := fun _ => none, aborting := fun _ => none,
    states := fun st => if st = timeState then some (some zero) else none }

/-- What an item of the script does: new tables, what is told to the executive, the plan that is added; `none`: an exception. `handleState`, `handleCommand`, `handleCommandAck`, `handleCommandAbort`,
`handleUpdateAck`, `handleSendPlan`: `TestExternalInterface.cc:170-267`. -/
def Tables.handle (t : Tables V C U) : Item V P → Option (Tables V C U × List (Tell V C U) × Option P)
  | .value st v => some ({ t with states := put t.states st (some v) }, [.value st v], none)
  | .result st v =>
    match t.executing st with
    | none => none
    | some c => some ({ t with executing := put t.executing st none }, [.result c v], none)
  | .ack st h =>
    match t.acks st with
    | none => none
    | some c => some (t, [.handle c h], none)
  | .abortAck _ none => none
  | .abortAck st (some b) =>
    match t.aborting st with
    | none => none
    | some c => some ({ t with aborting := put t.aborting st none }, [.abortAck c b], none)
  | .updateAck n =>
    match t.updates n with
    | none => none
    | some u => some ({ t with updates := put t.updates n none }, [.updateAck u], none)
  | .sendPlan f => some (t, [], ((f.kids.find? fun k => decide (k.1 = "PlexilPlan")).map Prod.snd).join)
  | .nothing => some (t, [], none)
  | .bad => none

/-- The commands `TestExec` performs itself: only the name is looked at. `TestExternalInterface.cc:534-550`. -/
inductive Builtin where
  | print
  | toString
deriving DecidableEq

/-- `executeCommand`, the name: `TestExternalInterface.cc:534-550`. -/
def builtin (st : State V) : Option Builtin :=
  if st.name = "print" ∨ st.name = "pprint" then some .print
  else if st.name = "printToString" ∨ st.name = "pprintToString" then some .toString
  else none

/-- What the interface does when asked: new tables, and what it tells the executive at once. `text` is the text `printToString` returns. `lookupNow`, `executeCommand`,
`reportCommandArbitrationFailure`, `invokeAbort`, `executeUpdate`: `TestExternalInterface.cc:500-512, 527-586`. -/
def Tables.asked (text : State V → V) (t : Tables V C U) : Ask V C U → Tables V C U × List (Tell V C U)
  | .lookup st =>
    match t.states st with
    | none => ({ t with states := put t.states st (some none) }, [.value st none])
    | some v => (t, [.value st v])
  | .execute c st ret =>
    match builtin st with
    | some .print => (t, [.handle c .success])
    | some .toString => (t, [.result c (some (text st)), .handle c .success])
    | none => ({ t with acks := put t.acks st (some c), executing := if ret then put t.executing st (some c) else t.executing }, [])
  | .deny c => (t, [.handle c .denied])
  | .abort c st => ({ t with aborting := put t.aborting st (some c) }, [])
  | .update u n => ({ t with updates := match t.updates n with
                                        | none => put t.updates n (some u)
                                        | some _ => t.updates }, [])

/-- The executive, as the interface sees it: it is told things, gets plans, begins a step (`PlexilExec::step`), asks for something or has finished the step (`none`), says whether it needs another step
(`PlexilExec::needsStep`). `PlexilExec.hh`. -/
structure Machine (σ V C U P : Type) where
  /-- It is told something. -/
  tell : σ → Tell V C U → σ
  /-- `addPlan` -/
  add : σ → P → σ
  /-- A step begins. -/
  begin : σ → σ
  /-- What it asks for next in the step. -/
  next : σ → Option (Ask V C U × σ)
  /-- `needsStep` -/
  needs : σ → Bool

/-- What happens in a run, in order: the interface reads an item of the script, tells the executive something, gives it a plan, is asked for something, calls `step`. -/
inductive Obs (V C U P : Type) where
  | read (i : Item V P)
  | tell (x : Tell V C U)
  | add (p : P)
  | ask (a : Ask V C U)
  | step

/-- Where `run` is: working on an element, inside `step`, returned, or left by an exception. `TestExternalInterface.cc:75-147`. -/
inductive Mode where
  | reading
  | stepping
  | over
  | failed
deriving DecidableEq

/-- A run of `TestExternalInterface::run`: the executive, the tables, what is left of the current element, the elements after it, and what has happened. `TestExternalInterface.cc:75-147`. -/
structure Run (σ V C U P : Type) where
  /-- The executive. -/
  exec : σ
  /-- Members of the interface. -/
  tables : Tables V C U
  /-- What is left of the current element. -/
  now : List (Item V P)
  /-- The elements after it. -/
  rest : List (Elem V P)
  /-- Where it is. -/
  mode : Mode
  /-- What has happened. -/
  trace : List (Obs V C U P)

variable {σ : Type}

/-- `run` begins with `handleInitialState`: `TestExternalInterface.cc:75-83, 149-168`. -/
def Run.start (s : σ) (zero : V) (initial : List (Item V P)) (script : List (Elem V P)) : Run σ V C U P :=
  { exec := s, tables := .init zero, now := initial, rest := script, mode := .reading, trace := [] }

/-- `run` and `handleInitialState`, one thing at a time: the next item of the element, or, if it has none left, `step` (`:137-138, 167`); in a step, the next thing the executive asks for; after
the step the next element (`:140`), or, if there is none left, another step if the executive needs one (`:144-146`). `TestExternalInterface.cc:75-168`. -/
def Run.tick (M : Machine σ V C U P) (text : State V → V) (r : Run σ V C U P) : Run σ V C U P :=
  match r.mode with
  | .reading =>
    match r.now with
    | i :: is =>
      match r.tables.handle i with
      | none => { r with mode := .failed, trace := r.trace ++ [.read i] }
      | some (t, ds, p) =>
        { r with exec := p.elim (ds.foldl M.tell r.exec) (M.add (ds.foldl M.tell r.exec)), tables := t, now := is,
                 trace := r.trace ++ .read i :: ds.map .tell ++ p.toList.map .add }
    | [] => { r with exec := M.begin r.exec, mode := .stepping, trace := r.trace ++ [.step] }
  | .stepping =>
    match M.next r.exec with
    | some (a, s) =>
      let x := r.tables.asked text a
      { r with exec := x.2.foldl M.tell s, tables := x.1, trace := r.trace ++ .ask a :: x.2.map .tell }
    | none =>
      match r.rest with
      | e :: es => { r with now := e.items, rest := es, mode := .reading }
      | [] => if M.needs r.exec then { r with exec := M.begin r.exec, trace := r.trace ++ [.step] } else { r with mode := .over }
  | .over | .failed => r

/-- The runs that can be seen, at any time. `TestExternalInterface.cc:75-147`. -/
inductive Runs (M : Machine σ V C U P) (text : State V → V) (zero : V) (initial : List (Item V P)) (script : List (Elem V P)) : Run σ V C U P → Prop
  | start (s : σ) : Runs M text zero initial script (.start s zero initial script)
  | tick {r} : Runs M text zero initial script r → Runs M text zero initial script (r.tick M text)

end Verif.Script
