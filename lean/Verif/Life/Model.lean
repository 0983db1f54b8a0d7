set_option autoImplicit false
/-!
Model of the life of adapters and listeners: `/repo/src/app-framework/ExecApplication.cc` (`initialize`, `startInterfaces`, `stop`, `terminate`),
`/repo/src/app-framework/AdapterConfiguration.cc` (`constructInterfaces`, `addInterfaceAdapter`, `initialize`, `start`, `stop`) and
`/repo/src/app-framework/ExecListenerHub.cc` (`constructListener`, `addListener`, `initialize`, `start`, `stop`).

Adapters and listeners are numbered in the order of their creation. What a component's `initialize` and `start` answer is left open: any function
of the calls so far. Not modelled: what the components do meanwhile (in particular adding further components from `initialize`), the executive's
thread and the waits in `stop` (see `Verif.App`), failures of the semaphore and of `kill` in `stop` (`ExecApplication.cc:604-617`), handlers.
-/
namespace Verif.Life

/-- The three calls a component gets, `InterfaceAdapter.hh:86-103`, `ExecListener.hh`. -/
inductive Phase
  | init
  | start
  | stop
deriving DecidableEq, Repr

/-- One call of a component and its answer (`stop` has none; it counts as `true`). `InterfaceAdapter.hh:86-103`. -/
structure Call where
  comp : Nat
  phase : Phase
  ok : Bool
deriving DecidableEq, Repr

/-- What a component will answer, given the calls made so far, to `initialize` or `start`. `InterfaceAdapter.hh:86-97`. -/
abbrev Answers := List Call → Nat → Phase → Bool

/-- An element of the configuration which creates a component: an adapter or a listener; `false` if the factory fails.
`AdapterConfiguration.cc:215-263`. -/
inductive Elem
  | adapter (ok : Bool)
  | listener (ok : Bool)
deriving DecidableEq, Repr

/-- The application: `m_adapters`, `m_listeners`, `m_initialized`, `m_interfacesStarted`; the number of components created and the calls made
(not in the code). `ExecApplication.cc:243-246`, `AdapterConfiguration.cc:886`, `ExecListenerHub.hh`. -/
structure St where
  adapters : List Nat := []
  listeners : List Nat := []
  created : Nat := 0
  initialized : Bool := false
  started : Bool := false
  calls : List Call := []
deriving DecidableEq, Repr

/-- `AdapterConfiguration::addInterfaceAdapter`, `AdapterConfiguration.cc:471-474`; also `703-716`. -/
def St.addAdapter (s : St) : St := { s with adapters := s.adapters ++ [s.created], created := s.created + 1 }

/-- `ExecListenerHub::addListener`, `ExecListenerHub.cc:141-146`; also `120-136`. -/
def St.addListener (s : St) : St := { s with listeners := s.listeners ++ [s.created], created := s.created + 1 }

/-- The loop of `constructInterfaces`, `AdapterConfiguration.cc:215-295`: ends at the first element that fails; what was created before stays. -/
def St.construct (s : St) : List Elem → St × Bool
  | [] => (s, true)
  | .adapter true :: r => s.addAdapter.construct r
  | .listener true :: r => s.addListener.construct r
  | .adapter false :: _ => (s, false)
  | .listener false :: _ => (s, false)

/-- The loops of `initialize` and `start`, `AdapterConfiguration.cc:301-333`, `ExecListenerHub.cc:152-181`: end at the first failure. -/
def callAll (ans : Answers) (p : Phase) : List Nat → List Call → List Call × Bool
  | [], cs => (cs, true)
  | c :: r, cs =>
    match ans cs c p with
    | true => callAll ans p r (cs ++ [⟨c, p, true⟩])
    | false => (cs ++ [⟨c, p, false⟩], false)

/-- The loops of `stop`, `AdapterConfiguration.cc:337-345`, `ExecListenerHub.cc:186-190`. -/
def stopAll (l : List Nat) (cs : List Call) : List Call := cs ++ l.map (fun c => ⟨c, .stop, true⟩)

/-- Adapters first, then listeners, unless an adapter failed: `ExecApplication.cc:385-396`, `426-434`. -/
def St.both (s : St) (ans : Answers) (p : Phase) : St × Bool :=
  match callAll ans p s.adapters s.calls with
  | (cs, false) => ({ s with calls := cs }, false)
  | (cs, true) => ({ s with calls := (callAll ans p s.listeners cs).1 }, (callAll ans p s.listeners cs).2)

/-- `ExecApplicationImpl::initialize`, `ExecApplication.cc:360-408`. The creation of the input queue (`399`) does not fail. -/
def St.initialize (s : St) (ans : Answers) (conf : List Elem) : St × Bool :=
  match s.initialized with
  | true => (s, true)
  | false =>
    match s.construct conf with
    | (t, false) => (t, false)
    | (t, true) =>
      match t.both ans .init with
      | (u, false) => (u, false)
      | (u, true) => ({ u with initialized := true }, true)

/-- `ExecApplicationImpl::startInterfaces`, `ExecApplication.cc:412-438`. -/
def St.startInterfaces (s : St) (ans : Answers) : St × Bool :=
  match s.initialized, s.started with
  | false, _ => (s, false)
  | true, true => (s, true)
  | true, false =>
    match s.both ans .start with
    | (u, false) => (u, false)
    | (u, true) => ({ u with started := true }, true)

/-- `ExecApplicationImpl::stop`, `ExecApplication.cc:587-637`. -/
def St.stop (s : St) : St :=
  match s.started with
  | false => s
  | true => { s with calls := stopAll s.listeners (stopAll s.adapters s.calls), started := false, initialized := false }

/-- `ExecApplicationImpl::terminate`, `ExecApplication.cc:642-653`. -/
def St.terminate (s : St) : St :=
  match s.initialized, s.started with
  | true, true => s.stop
  | _, _ => s

/-- What the program may do with the application. `ExecApplication.cc:360-653`, `AdapterConfiguration.cc:471`, `ExecListenerHub.cc:141`. -/
inductive Act
  | addAdapter
  | addListener
  | initialize (conf : List Elem)
  | startInterfaces
  | stop
  | terminate
deriving DecidableEq, Repr

/-- One of these, with its answer. `ExecApplication.cc:360-653`. -/
def St.act (s : St) (ans : Answers) : Act → St × Bool
  | .addAdapter => (s.addAdapter, true)
  | .addListener => (s.addListener, true)
  | .initialize conf => s.initialize ans conf
  | .startInterfaces => s.startInterfaces ans
  | .stop => (s.stop, true)
  | .terminate => (s.terminate, true)

/-- A history: any calls by the program, with any answers of the components. `ExecApplication.cc:360-653`. -/
inductive Reach (P : St → Act → Prop) (ans : Answers) : St → Prop
  | new : Reach P ans {}
  | act {s : St} (a : Act) : Reach P ans s → P s a → Reach P ans (s.act ans a).1

end Verif.Life
