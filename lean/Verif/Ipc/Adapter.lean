/-
Model of the IPC adapter: the commands it sends and the answers to them, and the states it answers for. Source: `/repo/src/interfaces/IpcAdapter/IpcAdapter.cc`; numbers of messages: `/repo/src/interfaces/IpcUtils/IpcFacade.cc`.

Two threads: the executive (`executeDefaultCommand`, `executeUpdateLookupCommand`, `lookupNow`) and the dispatch thread of IPC (`handleReturnValuesSequence`, `handleLookupNowMessages`), which take turns at any point where the code holds no mutex.

Simplifications. IPC accepts every message. Return values belong to no lookup (see `Rendezvous`) and are one value, or an acknowledgement that is a command handle. `m_nextSerial++` (`IpcFacade.cc:1015-1017`) is atomic in the model; in the code both threads use it without a mutex.
States are compared by name and parameters (without NaN).
-/
set_option autoImplicit false
namespace Verif.Ipc.Adapter

/-! ## Commands -/

/-- What the adapter tells the executive about a command: `COMMAND_SENT_TO_SYSTEM`, another handle, a value. `IpcAdapter.cc:662, 992, 998`. -/
inductive Resp (V : Type) where
  | sent
  | ack (h : Nat)
  | value (v : V)
deriving DecidableEq, Repr

/-- An announcement; return values are none. `IpcAdapter.cc:662`. -/
def Resp.isSent {V : Type} : Resp V → Bool | .sent => true | _ => false

/-- The adapter: the number of the next message, `m_pendingCommands`, the command the executive thread is executing with its number and whether it has been recorded, what the dispatch thread has found and is going to put into the
queue, and the queue of the executive, with the number each answer was for. `destroyed`: commands that have been deleted with their plan; `crashed`: one of these was used. `IpcAdapter.cc:628-667, 951-1001`. -/
structure St (C V : Type) where
  next : Nat := 1
  pending : Nat → Option C := fun _ => none
  exec : Option (C × Nat × Bool) := none
  disp : Option (Nat × C × Resp V) := none
  queue : List (Nat × C × Resp V) := []
  destroyed : List C := []
  crashed : Bool := false

/-- What happens. `IpcAdapter.cc:628-667, 951-1001`. -/
inductive Ev (C V : Type) where
  /-- Another message is sent. -/
  | other
  /-- `sendCommand`, `publishCommand`, `IpcAdapter.cc:644-653`. -/
  | send (c : C)
  /-- `IpcAdapter.cc:657-660`. -/
  | record
  /-- `IpcAdapter.cc:662`. -/
  | announce
  /-- Return values for that number: they are looked up, `IpcAdapter.cc:965-976`. -/
  | hear (n : Nat) (r : Resp V)
  /-- They are put into the queue, `IpcAdapter.cc:992, 998`. -/
  | put
  /-- The plan of a command is deleted. -/
  | destroy (c : C)
deriving DecidableEq, Repr

variable {C V : Type} [DecidableEq C]

/-- `getSerialNumber`, `IpcFacade.cc:1015-1017`: 32 bits. -/
def succ32 (n : Nat) : Nat := (n + 1) % 2 ^ 32

/-- One step; `none`: it cannot happen now. `IpcAdapter.cc:628-667, 951-1001`. -/
def St.step (s : St C V) : Ev C V → Option (St C V)
  | .other => some { s with next := succ32 s.next }
  | .send c => match s.exec with
    | none => some { s with exec := some (c, s.next, false), next := succ32 s.next }
    | some _ => none
  | .record => match s.exec with
    | some (c, n, false) => some { s with pending := fun k => if k = n then some c else s.pending k, exec := some (c, n, true) }
    | _ => none
  | .announce => match s.exec with
    | some (c, n, true) => some { s with queue := s.queue ++ [(n, c, .sent)], exec := none }
    | _ => none
  | .hear n r =>
    if r.isSent then none
    else match s.disp with
    | some _ => none
    | none => match s.pending n with
      | none => some s
      | some c => some { s with disp := some (n, c, r), crashed := s.crashed || s.destroyed.contains c }
  | .put => match s.disp with
    | none => none
    | some x => some { s with queue := s.queue ++ [x], disp := none }
  | .destroy c => some { s with destroyed := c :: s.destroyed }

/-- A history. `IpcAdapter.cc:628-667, 951-1001`. -/
def St.run (s : St C V) : List (Ev C V) → Option (St C V)
  | [] => some s
  | e :: es => (s.step e).bind (fun t => t.run es)

/-! ## States answered for -/

/-- `m_externalLookupNames` and `m_externalLookups`. `IpcAdapter.cc:1160-1163`. -/
structure Table (W : Type) where
  names : List String := []
  values : String × List W → Option W := fun _ => none

section
variable {W : Type} [DecidableEq W]

/-- `m_externalLookups[state] = value`, `IpcAdapter.cc:604, 1132`. -/
def Table.put (t : Table W) (k : String × List W) (v : W) : Table W := { t with values := fun x => if x = k then some v else t.values x }

/-- `parseExternalLookup`, `IpcAdapter.cc:1120-1133`, once the value has been read. -/
def Table.declare (t : Table W) (d : String × W) : Table W :=
  if d.1 ∈ t.names then t else ({ t with names := t.names ++ [d.1] }).put (d.1, []) d.2

/-- `parseExternalLookups`, `IpcAdapter.cc:1087-1097`. -/
def declared (ds : List (String × W)) : Table W := ds.foldl Table.declare {}

/-- What the command `UpdateLookup` does: the table, what the executive is told, the telemetry for the others, the acknowledgement (whether it is `COMMAND_SUCCESS`). `IpcAdapter.cc:570-623`. -/
structure Updated (W : Type) where
  table : Table W
  inside : Option ((String × List W) × W)
  outside : Option (String × List W)
  success : Bool

/-- `executeUpdateLookupCommand`, `IpcAdapter.cc:570-623`: arguments the name, the value, the parameters. -/
def updateLookup (t : Table W) (name : String) (v : W) (ps : List W) : Updated W :=
  if name ∈ t.names then ⟨t.put (name, ps) v, some ((name, ps), v), some (name, v :: ps), true⟩
  else ⟨t, none, none, false⟩

/-- What another executive that is not waiting for this state tells its own, `handleTelemetryValuesSequence`, `IpcAdapter.cc:899-942`. -/
def telemetry : String × List W → Option ((String × List W) × W)
  | (_, []) => none
  | (name, v :: ps) => if name = "" then none else some ((name, ps), v)

/-- A question from outside, `handleLookupNowMessages`, `IpcAdapter.cc:1006-1061`: the answer sent, if any. -/
def asked (t : Table W) (name : String) (ps : List W) : Option W :=
  match t.values (name, ps) with
  | some v => some v
  | none => if ps.length > 0 then t.values (name, []) else none

/-- A lookup of the plan, `lookupNow`, `IpcAdapter.cc:705-718`: the value, or `none`: a question is sent to the others. -/
def lookup (t : Table W) (name : String) (ps : List W) : Option W := t.values (name, ps)

/-- The table after some `UpdateLookup` commands. `IpcAdapter.cc:570-623`. -/
def updates (t : Table W) (us : List (String × W × List W)) : Table W := us.foldl (fun t u => (updateLookup t u.1 u.2.1 u.2.2).table) t
end

end Verif.Ipc.Adapter
