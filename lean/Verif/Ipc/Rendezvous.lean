set_option autoImplicit false
/-!
Model of a lookup through IPC: `lookupNow` of `/repo/src/interfaces/IpcAdapter/IpcAdapter.cc`, run by the executive, and the handling of telemetry and return values,
run by the dispatch thread of IPC. The executive asks, and blocks on a semaphore until the dispatch thread has stored an answer. Sections under the
mutex of the lookups are single steps, except that of the executive that sends the question.

Not modelled: lookups answered by the adapter itself (`m_externalLookups`), names with a destination, commands (a return value that belongs to no lookup is
dropped here), failures to send, wrapping of the 32 bit serial numbers.
-/
namespace Verif.Ipc.Rendezvous

/-- Where the executive is in `lookupNow`. `asking` and `asked` hold the mutex. `IpcAdapter.cc:705-762`. -/
inductive Exec (Q : Type)
  | idle
  | asking (q : Q)
  | asked (q : Q) (serial : Nat)
  | waiting (q : Q)
  | woken (q : Q)
deriving DecidableEq, Repr

/-- The adapter. `pending…` are `m_pendingLookupResult` (`none`: unknown), `m_pendingLookupState` (`none`: the empty state) and `m_pendingLookupSerial`; `sem` the
semaphore; `matched` the dispatch thread in `handleReturnValuesSequence` between the comparison of the serial number and the lock. `next` is `m_nextSerial` of the facade.
`sent`, `results` and `changes` record what can be observed: the questions sent, the answers given to the executive, and the changes of values reported.
`IpcAdapter.cc:1174-1187`, `IpcFacade.cc:482`. -/
structure St (Q V : Type) where
  exec : Exec Q := .idle
  pendingResult : Option V := none
  pendingState : Option Q := none
  pendingSerial : Nat := 0
  sem : Nat := 0
  matched : Option V := none
  next : Nat := 1
  sent : List (Nat × Q) := []
  results : List (Q × Option V) := []
  changes : List (Q × V) := []
deriving DecidableEq, Repr

/-- What can happen: steps of the executive, and of the dispatch thread (`reply`, `write`, `telemetry`). `other` is a message sent meanwhile that is not a lookup.
`IpcAdapter.cc:705-762, 899-963`. -/
inductive Ev (Q V : Type)
  | start (q : Q)
  | send
  | store (serial : Nat)
  | wake
  | take
  | other
  | reply (serial : Nat) (v : V)
  | write
  | telemetry (q : Q) (v : V)
deriving DecidableEq, Repr

section
variable {Q V : Type} [DecidableEq Q]

/-- Does the executive hold the mutex? `IpcAdapter.cc:731-746`. -/
def St.locked (s : St Q V) : Bool :=
  match s.exec with
  | .asking _ => true
  | .asked _ _ => true
  | _ => false

/-- One step; `none` if it cannot be taken now. `IpcAdapter.cc:731-733` (`start`), `740, 744` (`send`, `store`), `751` (`wake`), `755-761` (`take`), `955` (`reply`),
`957-962` (`write`), `936-946` (`telemetry`). -/
def St.step (s : St Q V) : Ev Q V → Option (St Q V)
  | .start q =>
    match s.exec with
    | .idle => some { s with exec := .asking q, pendingResult := none, pendingState := some q }
    | _ => none
  | .send =>
    match s.exec with
    | .asking q => some { s with exec := .asked q s.next, next := s.next + 1, sent := s.sent ++ [(s.next, q)] }
    | _ => none
  | .store m =>
    match s.exec with
    | .asked q n => if m = n then some { s with exec := .waiting q, pendingSerial := n } else none
    | _ => none
  | .wake =>
    match s.exec, s.sem with
    | .waiting q, k + 1 => some { s with exec := .woken q, sem := k }
    | _, _ => none
  | .take =>
    match s.exec with
    | .woken q => some { s with exec := .idle, results := s.results ++ [(q, s.pendingResult)], pendingSerial := 0, pendingState := none, pendingResult := none }
    | _ => none
  | .other => some { s with next := s.next + 1 }
  | .reply n v =>
    match s.matched with
    | some _ => none
    | none => if n = s.pendingSerial then some { s with matched := some v } else some s
  | .write =>
    match s.matched, s.locked with
    | some v, false => some { s with matched := none, pendingResult := some v, sem := s.sem + 1 }
    | _, _ => none
  | .telemetry q v =>
    match s.matched, s.locked with
    | none, false =>
      if s.pendingState = some q then some { s with pendingResult := some v, sem := s.sem + 1 }
      else some { s with changes := s.changes ++ [(q, v)] }
    | _, _ => none

/-- A schedule. `IpcAdapter.cc:705-762, 899-963`. -/
def St.run (s : St Q V) : List (Ev Q V) → Option (St Q V)
  | [] => some s
  | e :: r => (s.step e).bind (fun t => t.run r)

end

end Verif.Ipc.Rendezvous
