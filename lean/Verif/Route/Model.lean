set_option autoImplicit false
/-!
Model of how commands, lookups and updates reach the handlers: `/repo/src/app-framework/AdapterConfiguration.cc:351-615, 768-875`,
`/repo/src/app-framework/CommandHandler.cc`, `/repo/src/app-framework/LookupHandler.cc`, and the loops of `executeOutboundQueue`,
`/repo/src/exec/PlexilExec.cc:610-650`.

Pieces of user code are numbered. Whether one of them returns, throws an `InterfaceError` or throws something else is left open: any function of what happened so
far. Not modelled: what that code does otherwise; threads (everything here runs in the executive's thread, and registrations must not be made meanwhile).
-/
namespace Verif.Route

/-- A command or an update: its identity (a pointer in the code) and, for a command, its name. `Command.hh`, `Update.hh`. -/
structure Item where
  id : Nat
  name : String
deriving DecidableEq, Repr

/-- What the executive asks for. `Dispatcher.hh:62-97`. The two `setThresholds` are the real and the integer one. -/
inductive Req
  | execute (c : Item)
  | abort (c : Item)
  | denied (c : Item)
  | update (u : Item)
  | lookup (state : String)
  | thresholdsReal (state : String)
  | thresholdsInt (state : String)
  | clear (state : String)
deriving DecidableEq, Repr

/-- A command handler: an object of a class derived from `CommandHandler`, a pair of functions (`CommandHandlerWrapper`, `AdapterConfiguration.cc:768-813`;
`none` is an empty `std::function`), or the default (`CommandHandler.cc:51-66`). -/
inductive CmdHandler
  | object (n : Nat)
  | functions (exec abort : Option Nat)
  | builtin
deriving DecidableEq, Repr

/-- A lookup handler: an object, four functions (`LookupHandlerWrapper`, `AdapterConfiguration.cc:818-875`), or the default (`LookupHandler.cc:41-66`). -/
inductive LkHandler
  | object (n : Nat)
  | functions (now real int clear : Option Nat)
  | builtin
deriving DecidableEq, Repr

/-- How a piece of user code ends. `InterfaceError.hh`. -/
inductive End
  | returns
  | interfaceError
  | other
deriving DecidableEq, Repr

/-- What happens. `AdapterConfiguration.cc:483-578`, `CommandHandler.cc:40-66`.
* `call n r e`: code `n` is called with request `r` and ends with `e`
* `ackSuccess c`, `abortAck c b`, `updateAck u`: queued for the executive (`handleCommandAck`, …), which is notified
* `handleError c`, `handleDenied c`, `abortRefused c`: set at once (`commandHandleReturn`, `commandAbortAcknowledge`)
* `unknown s`: the receiver of the lookup is set to unknown
* `uncaught`: an exception leaves the dispatcher -/
inductive Event
  | call (n : Nat) (r : Req) (e : End)
  | ackSuccess (c : Item)
  | abortAck (c : Item)
  | updateAck (u : Item)
  | handleError (c : Item)
  | handleDenied (c : Item)
  | abortRefused (c : Item)
  | unknown (state : String)
  | uncaught
deriving DecidableEq, Repr

/-- The tables: `m_commandMap`, `m_lookupMap`, the defaults and the update handler. `AdapterConfiguration.cc:882-896`. -/
structure Tables where
  cmd : String → Option CmdHandler := fun _ => none
  lk : String → Option LkHandler := fun _ => none
  cmdDefault : CmdHandler := .builtin
  lkDefault : LkHandler := .builtin
  upd : Option Nat := none

/-- What an adapter may register. `AdapterConfiguration.cc:351-457`. -/
inductive Reg
  | commands (h : CmdHandler) (names : List String)
  | command (h : CmdHandler) (name : String)
  | cmdDefault (h : CmdHandler)
  | lookups (h : LkHandler) (names : List String)
  | lookup (h : LkHandler) (name : String)
  | lkDefault (h : LkHandler)
  | update (n : Option Nat)
deriving DecidableEq, Repr

/-- `m[name] = h`. `AdapterConfiguration.cc:357`. -/
def put {H : Type} (m : String → Option H) (name : String) (h : H) : String → Option H := fun s => if s = name then some h else m s

/-- The registration functions, `AdapterConfiguration.cc:351-457`. -/
def Tables.register (t : Tables) : Reg → Tables
  | .commands h ns => { t with cmd := ns.foldl (fun m n => put m n h) t.cmd }
  | .command h n => { t with cmd := put t.cmd n h }
  | .cmdDefault h => { t with cmdDefault := h }
  | .lookups h ns => { t with lk := ns.foldl (fun m n => put m n h) t.lk }
  | .lookup h n => { t with lk := put t.lk n h }
  | .lkDefault h => { t with lkDefault := h }
  | .update n => { t with upd := n }

/-- `getCommandHandler`, `AdapterConfiguration.cc:586-597`. -/
def Tables.cmdHandler (t : Tables) (name : String) : CmdHandler :=
  match t.cmd name with
  | some h => h
  | none => t.cmdDefault

/-- `getLookupHandler`, `AdapterConfiguration.cc:599-610`. -/
def Tables.lkHandler (t : Tables) (name : String) : LkHandler :=
  match t.lk name with
  | some h => h
  | none => t.lkDefault

/-- How user code ends, given what happened before. `CommandHandler.hh:64-76`. -/
abbrev Code := List Event → Nat → Req → End

/-- Call code `n` where an `InterfaceError` is caught and answered with `onError`. `AdapterConfiguration.cc:486-493, 526-534, 550-558`. -/
def guarded (code : Code) (log : List Event) (n : Nat) (r : Req) (onError : Event) : List Event :=
  match code log n r with
  | .returns => [.call n r .returns]
  | .interfaceError => [.call n r .interfaceError, onError]
  | .other => [.call n r .other, .uncaught]

/-- Call code `n` where nothing is caught. `AdapterConfiguration.cc:501-520, 577`. -/
def bare (code : Code) (log : List Event) (n : Nat) (r : Req) : List Event :=
  match code log n r with
  | .returns => [.call n r .returns]
  | .interfaceError => [.call n r .interfaceError, .uncaught]
  | .other => [.call n r .other, .uncaught]

/-- Call an optional piece of code where nothing is caught; nothing happens if it is missing. `AdapterConfiguration.cc:850-866`. -/
def bareOpt (code : Code) (log : List Event) (f : Option Nat) (r : Req) : List Event :=
  match f with
  | some n => bare code log n r
  | none => []

/-- `executeCommand`, `AdapterConfiguration.cc:524-535`, with `791-794` and `CommandHandler.cc:56-61`. An empty function throws `std::bad_function_call`. -/
def execute (code : Code) (log : List Event) (h : CmdHandler) (c : Item) : List Event :=
  match h with
  | .object n => guarded code log n (.execute c) (.handleError c)
  | .functions (some n) _ => guarded code log n (.execute c) (.handleError c)
  | .functions none _ => [.uncaught]
  | .builtin => [.ackSuccess c]

/-- `invokeAbort`, `AdapterConfiguration.cc:548-559`, with `797-803` and `CommandHandler.cc:40-45, 63-66`. -/
def abort (code : Code) (log : List Event) (h : CmdHandler) (c : Item) : List Event :=
  match h with
  | .object n => guarded code log n (.abort c) (.abortRefused c)
  | .functions _ (some n) => guarded code log n (.abort c) (.abortRefused c)
  | .functions _ none => [.abortAck c]
  | .builtin => [.abortAck c]

/-- `executeUpdate`, `AdapterConfiguration.cc:563-578`. -/
def update (code : Code) (log : List Event) (h : Option Nat) (u : Item) : List Event :=
  match h with
  | some n => bare code log n (.update u)
  | none => [.updateAck u]

/-- `lookupNow`, `AdapterConfiguration.cc:483-494`, with `844-848` and `LookupHandler.cc:46-49`. -/
def lookup (code : Code) (log : List Event) (h : LkHandler) (s : String) : List Event :=
  match h with
  | .object n => guarded code log n (.lookup s) (.unknown s)
  | .functions (some n) _ _ _ => guarded code log n (.lookup s) (.unknown s)
  | .functions none _ _ _ => []
  | .builtin => []

/-- `setThresholds`, real, `AdapterConfiguration.cc:501-505, 850-854`. -/
def thresholdsReal (code : Code) (log : List Event) (h : LkHandler) (s : String) : List Event :=
  match h with
  | .object n => bare code log n (.thresholdsReal s)
  | .functions _ f _ _ => bareOpt code log f (.thresholdsReal s)
  | .builtin => []

/-- `setThresholds`, integer, `AdapterConfiguration.cc:507-511, 856-860`. -/
def thresholdsInt (code : Code) (log : List Event) (h : LkHandler) (s : String) : List Event :=
  match h with
  | .object n => bare code log n (.thresholdsInt s)
  | .functions _ _ f _ => bareOpt code log f (.thresholdsInt s)
  | .builtin => []

/-- `clearThresholds`, `AdapterConfiguration.cc:516-520, 862-866`. -/
def clear (code : Code) (log : List Event) (h : LkHandler) (s : String) : List Event :=
  match h with
  | .object n => bare code log n (.clear s)
  | .functions _ _ _ f => bareOpt code log f (.clear s)
  | .builtin => []

/-- What a request leads to. `AdapterConfiguration.cc:483-578`. -/
def Tables.dispatch (t : Tables) (code : Code) (log : List Event) : Req → List Event
  | .execute c => execute code log (t.cmdHandler c.name) c
  | .abort c => abort code log (t.cmdHandler c.name) c
  | .denied c => [.handleDenied c]
  | .update u => update code log t.upd u
  | .lookup s => lookup code log (t.lkHandler s) s
  | .thresholdsReal s => thresholdsReal code log (t.lkHandler s) s
  | .thresholdsInt s => thresholdsInt code log (t.lkHandler s) s
  | .clear s => clear code log (t.lkHandler s) s

/-- A history of the dispatcher: registrations and requests. `AdapterConfiguration.cc:351-578`. -/
inductive Act
  | reg (r : Reg)
  | req (r : Req)
deriving DecidableEq, Repr

/-- The dispatcher with the events so far. `AdapterConfiguration.cc:882-896`. -/
structure St where
  tables : Tables := {}
  log : List Event := []

/-- One step. `AdapterConfiguration.cc:351-578`. -/
def St.act (code : Code) (s : St) : Act → St
  | .reg r => { s with tables := s.tables.register r }
  | .req r => { s with log := s.log ++ s.tables.dispatch code s.log r }

/-- A whole history, from the start. `AdapterConfiguration.cc:351-578`. -/
def run (code : Code) (h : List Act) : St := h.foldl (St.act code) {}

/-- `executeOutboundQueue`, `PlexilExec.cc:610-650`, with the arbiter's verdict given: the requests in order, up to the first exception that is not caught;
returns the events and what is left in the queues. A request is taken off its queue before it is made. -/
def outbound (t : Tables) (code : Code) : List Req → List Event → List Event × List Req
  | [], log => (log, [])
  | r :: rest, log =>
    match (t.dispatch code log r).contains .uncaught with
    | true => (log ++ t.dispatch code log r, rest)
    | false => outbound t code rest (log ++ t.dispatch code log r)

/-- The requests of one macro step, `PlexilExec.cc:615-649`: accepted commands, then rejected ones, then aborts, then updates. -/
def requests (accepted rejected aborts updates : List Item) : List Req :=
  accepted.map .execute ++ rejected.map .denied ++ aborts.map .abort ++ updates.map .update

end Verif.Route
