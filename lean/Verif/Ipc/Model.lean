set_option autoImplicit false
/-!
Model of the exchange of messages over IPC: `/repo/src/interfaces/IpcUtils/IpcFacade.cc`, and the packets, `/repo/src/interfaces/IpcUtils/ipc-data-formats.h`.

A message (a command, a lookup, telemetry, return values, a planner update) is sent as a leader and one packet for every parameter; the receiver puts them together.
Parameters are of an arbitrary type here (see `Verif.Ipc.Wire` for their encoding). The IPC library itself is not modelled: it is assumed to deliver the packets of one
sender in the order they were sent; packets of different senders, and of different messages of a sender with several threads, may be interleaved in any way.
-/
namespace Verif.Ipc

/-- `PlexilMsgType`, `ipc-data-formats.h:282-370`, as far as `handleMessage` distinguishes it. `single` stands for Message, NotifyExec, AddPlan, AddPlanFile,
AddLibrary and AddLibraryFile (numbered), `trailer` for all values, arrays and pairs. -/
inductive Kind
  | command
  | lookupNow
  | plannerUpdate
  | telemetry
  | returnValues (requester : String)
  | single (n : Nat)
  | trailer
  | invalid
deriving DecidableEq, Repr

/-- What listeners can subscribe to: the `msgType` of a leader. `IpcFacade.cc:629-636`. -/
def Kind.type : Kind → Nat
  | .command => 0
  | .lookupNow => 1
  | .plannerUpdate => 2
  | .telemetry => 3
  | .returnValues _ => 4
  | .trailer => 5
  | .invalid => 6
  | .single n => n + 7

/-- `PlexilMsgBase`, `ipc-data-formats.h:46-52`, with its datum. -/
structure Packet (B : Type) where
  kind : Kind
  count : Nat
  serial : Nat
  sender : String
  body : B
deriving DecidableEq, Repr

/-- `IpcMessageId`, `IpcFacade.hh:332`. -/
abbrev Key := String × Nat

section
variable {B : Type}

/-- The identifier of a packet, `IpcFacade.cc:1257, 1289`. -/
def Packet.key (p : Packet B) : Key := (p.sender, p.serial)

/-- The receiver: `m_incompletes`, and whether an assertion has failed. `IpcFacade.hh:335-357`. -/
structure Rx (B : Type) where
  inc : Key → Option (List (Packet B)) := fun _ => none
  failed : Bool := false

/-- Set an entry of `m_incompletes`. `IpcFacade.cc:1278, 1308`. -/
def Rx.set (r : Rx B) (k : Key) (v : Option (List (Packet B))) : Rx B := { r with inc := fun x => if x = k then v else r.inc x }

/-- `cacheMessageLeader`, `IpcFacade.cc:1255-1280`. The second component is what is delivered. -/
def Rx.leader (r : Rx B) (p : Packet B) : Rx B × Option (List (Packet B)) :=
  match r.inc p.key with
  | some _ => ({ r with failed := true }, none)
  | none => if p.count = 0 then (r, some [p]) else (r.set p.key (some [p]), none)

/-- The number of packets a leader announces. `IpcFacade.cc:1304`. -/
def announced : List (Packet B) → Nat
  | [] => 0
  | p :: _ => p.count

/-- `cacheMessageTrailer`, `IpcFacade.cc:1287-1310`. -/
def Rx.trailer (r : Rx B) (p : Packet B) : Rx B × Option (List (Packet B)) :=
  match r.inc p.key with
  | none => (r, none)
  | some ms =>
    if announced ms < (ms ++ [p]).length then (r.set p.key none, some (ms ++ [p]))
    else (r.set p.key (some (ms ++ [p])), none)

/-- `handleMessage`, `IpcFacade.cc:1155-1245`, of a facade with the identifier `me`. -/
def Rx.handle (me : String) (r : Rx B) (p : Packet B) : Rx B × Option (List (Packet B)) :=
  match p.kind with
  | .command => if p.count ≠ 0 then r.leader p else (r, some [p])
  | .lookupNow => if p.count ≠ 0 then r.leader p else (r, some [p])
  | .plannerUpdate => r.leader p
  | .telemetry => r.leader p
  | .returnValues to => if to = me then r.leader p else (r, none)
  | .trailer => r.trailer p
  | .single _ => (r, some [p])
  | .invalid => ({ r with failed := true }, none)

/-- The receiver and what it has delivered so far. `IpcFacade.cc:1316-1344`. -/
structure Facade (B : Type) where
  rx : Rx B := {}
  delivered : List (List (Packet B)) := []

/-- One packet arrives; nothing happens any more once an assertion has failed. `IpcFacade.cc:1155-1344`. -/
def Facade.packet (me : String) (f : Facade B) (p : Packet B) : Facade B :=
  match f.rx.failed with
  | true => f
  | false => { rx := (f.rx.handle me p).1, delivered := f.delivered ++ (f.rx.handle me p).2.toList }

/-- Packets arrive. `IpcFacade.cc:1140-1152`. -/
def Facade.run (me : String) (f : Facade B) (arr : List (Packet B)) : Facade B := arr.foldl (Facade.packet me) f

/-- A message to be sent: `sendCommand`, `sendLookupNow`, `publishReturnValues`, `publishTelemetry`, `publishUpdate`, `publishMessage`; `IpcFacade.cc:712-859`. -/
structure Out (B : Type) where
  kind : Kind
  sender : String
  serial : Nat
  body : B
  params : List B
deriving DecidableEq, Repr

/-- The packets of the parameters: `sendParameters`, `sendPairs`, `IpcFacade.cc:866-1010`. `count` is a 16 bit number. -/
def Out.trailers (m : Out B) : Nat → List B → List (Packet B)
  | _, [] => []
  | i, b :: r => ⟨.trailer, i % 65536, m.serial, m.sender, b⟩ :: m.trailers (i + 1) r

/-- The leader: `IpcFacade.cc:715-720, 736-741, 773-778, 797-803, 828-833, 847-852`. The number of parameters is cut to 16 bits. -/
def Out.leader (m : Out B) : Packet B := ⟨m.kind, m.params.length % 65536, m.serial, m.sender, m.body⟩

/-- All packets of a message, in the order sent. `IpcFacade.cc:712-1010`. -/
def Out.packets (m : Out B) : List (Packet B) := m.leader :: m.trailers 0 m.params

/-! ### Subscriptions -/

/-- `m_listenersToAll` and `m_registeredListeners`; what each listener has heard (not in the code). `IpcFacade.hh:325-353`. -/
structure Subs (B : Type) where
  all : List Nat := []
  byType : Nat → List Nat := fun _ => []
  heard : List (Nat × List (Packet B)) := []

/-- `std::remove` on a vector of pointers: those different from `x` are moved to the front; the length stays, and so does what is behind them. Used in
`IpcFacade.cc:646-648`. -/
def stdRemove (l : List Nat) (x : Nat) : List Nat := l.filter (fun y => y ≠ x) ++ l.drop (l.filter (fun y => y ≠ x)).length

/-- What can happen to the subscriptions. `IpcFacade.cc:619-694, 1316-1336`. -/
inductive SubAct (B : Type)
  | subscribeAll (l : Nat)
  | subscribe (l : Nat) (type : Nat)
  | unsubscribe (l : Nat)
  | unsubscribeAll
  | deliver (msg : List (Packet B))

/-- The type of a message, that of its leader. `IpcFacade.cc:1331`. -/
def msgType : List (Packet B) → Nat
  | [] => 6
  | p :: _ => p.kind.type

/-- `subscribeAll`, `subscribe`, `unsubscribe` (the loop over `m_registeredListeners`, `IpcFacade.cc:647`, works on copies), `unsubscribeAllListeners`,
`deliverMessages`: `IpcFacade.cc:619-651, 683-694, 1316-1336`. -/
def Subs.act (s : Subs B) : SubAct B → Subs B
  | .subscribeAll l => { s with all := s.all ++ [l] }
  | .subscribe l t => { s with byType := fun u => if u = t then s.byType t ++ [l] else s.byType u }
  | .unsubscribe l => { s with all := stdRemove s.all l }
  | .unsubscribeAll => { s with all := [], byType := fun _ => [] }
  | .deliver m => { s with heard := s.heard ++ (s.all ++ s.byType (msgType m)).map (fun l => (l, m)) }

end

end Verif.Ipc
