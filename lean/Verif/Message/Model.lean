import Verif.Cache.Model
import Verif.Command.Model
set_option autoImplicit false
/-!
Model of messages: `/repo/src/app-framework/MessageAdapter.cc`, the message part of `/repo/src/app-framework/InterfaceManager.cc` and `/repo/src/intfc/QueueEntry.cc`,
`/repo/src/intfc/StateCache.cc:135-241`.

`none` stands for an exception or a crash. Simplifications: the functions of the adapter are atomic (its `std::queue` is not protected by a lock, although messages arrive in
another thread); the input queue is a list (C55); messages are values (in the code the queue entries hold pointers into the adapter's queue).
-/
namespace Verif.Message
open Verif.Value Verif.Cache
open Verif.Keys (State)

/-- The bytes of a literal (ASCII). As in `StateCache.cc:159-172`. -/
def lit (s : String) : Str := s.toList.map (fun c => BitVec.ofNat 8 c.toNat)

/-- `struct Message`, `Message.hh:40-58`; `name`, `params` are those of `message`, a `State`. -/
structure Msg where
  name : Str
  params : List Value
  sender : Str
  time : F64

/-- `s_haveMessage`, `StateCache.cc:264`. -/
def haveMessage : State := ⟨lit "HaveMessage", []⟩
/-- `s_peekAtMessage`, `StateCache.cc:265`. -/
def peekAtMessage : State := ⟨lit "PeekAtMessage", []⟩
/-- `s_peekAtMessageSender`, `StateCache.cc:266`. -/
def peekAtMessageSender : State := ⟨lit "PeekAtMessageSender", []⟩

/-- A string value. -/
def sv (s : Str) : Value := .known (.str s)
/-- `(Integer) n`. -/
def iv (n : Nat) : Value := .known (.int (BitVec.ofNat 32 n))

/-- `State("MessageText", handle)`, `StateCache.cc:159, 201`. -/
def textState (h : Str) : State := ⟨lit "MessageText", [sv h]⟩
/-- `State("MessageParameterCount", handle)`, `StateCache.cc:161, 182`. -/
def countState (h : Str) : State := ⟨lit "MessageParameterCount", [sv h]⟩
/-- `State("MessageParameter", handle, i)`, `StateCache.cc:164-166, 198-200`. -/
def paramState (h : Str) (i : Nat) : State := ⟨lit "MessageParameter", [sv h, iv i]⟩
/-- `State("MessageSender", handle)`, `StateCache.cc:169, 202`. -/
def senderState (h : Str) : State := ⟨lit "MessageSender", [sv h]⟩
/-- `State("MessageArrived", handle)`, `StateCache.cc:171, 203`. -/
def arrivedState (h : Str) : State := ⟨lit "MessageArrived", [sv h]⟩

/-- `messageReceived`, `StateCache.cc:135-140`. -/
def messageReceived (c : Cache) (m : Msg) : Option Cache :=
  ((c.update haveMessage (.known (.bool true))).bind (fun c => c.update peekAtMessage (sv m.name))).bind (fun c => c.update peekAtMessageSender (sv m.sender))

/-- `messageQueueEmpty`, `StateCache.cc:144-149`. -/
def messageQueueEmpty (c : Cache) : Option Cache :=
  (c.update haveMessage (.known (.bool false))).map (fun c => (c.setUnknown peekAtMessage).setUnknown peekAtMessageSender)

/-- The loop over the parameters, `StateCache.cc:163-168`; `i` = the index of the first parameter in the list. -/
def assignParams (h : Str) : Nat → List Value → Cache → Option Cache
  | _, [], c => some c
  | i, v :: vs, c => (c.update (paramState h i) v).bind (assignParams h (i + 1) vs)

/-- `assignMessageHandle`, `StateCache.cc:154-174`. -/
def assignMessageHandle (c : Cache) (m : Msg) (h : Str) : Option Cache :=
  ((((c.update (textState h) (sv m.name)).bind
    (fun c => c.update (countState h) (iv m.params.length))).bind
    (assignParams h 0 m.params)).bind
    (fun c => c.update (senderState h) (sv m.sender))).bind
    (fun c => c.update (arrivedState h) (.known (.real m.time)))

/-- `deleteStateCacheEntry`, `StateCache.cc:231-241`. -/
def deleteEntry (c : Cache) (s : State) : Cache :=
  match c s with
  | none => c
  | some e => if e.lookups ≠ 0 then c else c.set s none

/-- The loop of `releaseMessageHandle`, `StateCache.cc:197-201`. -/
def deleteParams (h : Str) : Nat → Cache → Cache
  | 0, c => c
  | n + 1, c => deleteEntry (deleteParams h n c) (paramState h n)

/-- The number of iterations of a loop `for (Integer i = 0; i < count; ++i)`, `StateCache.cc:197`. -/
def iterations (n : I32) : Nat := n.toInt.toNat

/-- `releaseMessageHandle`, `StateCache.cc:179-205`. The entry of the parameter count may have no value object: then its `getValue` is called through a null
pointer (`:187`). A value object of another type reports an error. -/
def releaseMessageHandle (c : Cache) (h : Str) : Option Cache :=
  match c (countState h) with
  | none => some c
  | some e =>
    match e.value with
    | none => none
    | some .void => some c
    | some (.typed .integer none) => some c
    | some (.typed .integer (some (.int n))) =>
      if e.lookups ≠ 0 then some c
      else some (deleteEntry (deleteEntry (deleteEntry (deleteParams h (iterations n) (c.set (countState h) none)) (textState h)) (senderState h)) (arrivedState h))
    | some _ => none

/-- Entries of the input queue that matter here, `QueueEntry.cc:52-145`. An accepted message should carry its handle in `value`. -/
inductive Item
  | received (m : Msg)
  | empty
  | accept (m : Msg) (handle : Option Str)
  | release (h : Str)
  | ack (cmd : Nat) (h : Nat)
  | ret (cmd : Nat) (v : Value)
  | value (s : State) (v : Value)

/-- `initForAcceptMessage`, `QueueEntry.cc:127-131`: the handle is not stored; the value of a fresh or recycled entry is unknown (`:35-50`). -/
def initForAcceptMessage (m : Msg) (_h : Str) : Item := .accept m none

/-- `notifyMessageAccepted`, `InterfaceManager.cc:309-325`: what is put into the queue. -/
def notifyMessageAccepted (m : Msg) (h : Str) : List Item := if h = [] then [] else [initForAcceptMessage m h]

/-- `notifyMessageHandleReleased`, `InterfaceManager.cc:329-340`. -/
def notifyMessageHandleReleased (h : Str) : List Item := if h = [] then [] else [.release h]

/-- `acceptMessage`, `MessageAdapter.cc:123-146`: the new queue of the adapter and what is put into the input queue. -/
def acceptMessage (q : List Msg) (cmd : Nat) : List Msg × List Item :=
  match q with
  | [] => ([], [.ret cmd (.unknown .unknownT), .ack cmd Command.success])
  | m :: r =>
    (r, notifyMessageAccepted m [] ++ [.ret cmd (sv [])] ++ (match r with
      | [] => [.empty]
      | m' :: _ => [.received m']) ++ [.ack cmd Command.success])

/-- `State::parameterType`, `State.cc:159-164`. -/
def paramType (args : List Value) (i : Nat) : VType := if i < args.length then (args.getD i (.unknown .unknownT)).type else .unknownT

/-- `State::parameter`, `State.cc:166-174`. -/
def param (args : List Value) (i : Nat) : Value := args.getD i (.unknown .unknownT)

/-- `if (…) { warn(…); handleCommandAck(cmd, …); notifyOfExternalEvent(); }`, as in `MessageAdapter.cc:202-219`: there is no `return`. -/
def complain (bad : Bool) (cmd : Nat) (h : Nat) : List Item := if bad then [.ack cmd h] else []

/-- `releaseMessageHandleHandler` and `releaseMessageHandle`, `MessageAdapter.cc:152-157, 196-224`; `text` = `Value::valueToString`. -/
def releaseHandler (text : Value → Str) (cmd : Nat) (args : List Value) : List Item :=
  complain (args.length < 1) cmd Command.failed ++ complain (paramType args 0 ≠ .string) cmd Command.failed ++
    complain (!(param args 0).isKnown) cmd Command.success ++ notifyMessageHandleReleased (text (param args 0)) ++ [.ack cmd Command.success]

/-- `publishMessageHandler` and `publishMessage`, `MessageAdapter.cc:163-168, 226-253`. -/
def publishHandler (cmd : Nat) (args : List Value) : List Item :=
  complain (args.length < 1) cmd Command.failed ++ complain (paramType args 0 ≠ .string) cmd Command.failed ++
    complain (!(param args 0).isKnown) cmd Command.failed ++ [.ack cmd Command.success]

/-- `sendMessageHandler` and `sendMessage`, `MessageAdapter.cc:174-179, 255-296`. -/
def sendHandler (cmd : Nat) (args : List Value) : List Item :=
  complain (args.length < 1) cmd Command.failed ++ complain (paramType args 0 ≠ .string) cmd Command.failed ++
    complain (!(param args 0).isKnown) cmd Command.failed ++ complain (paramType args 1 ≠ .string) cmd Command.failed ++
    complain (!(param args 1).isKnown) cmd Command.failed ++ [.ack cmd Command.success]

/-- The four commands, `MessageAdapter.cc:76-89`. -/
inductive Kind | get | release | publish | send

/-- A command is executed, `MessageAdapter.cc:187-296`. -/
def execute (text : Value → Str) (q : List Msg) (k : Kind) (cmd : Nat) (args : List Value) : List Msg × List Item :=
  match k with
  | .get => acceptMessage q cmd
  | .release => (q, releaseHandler text cmd args)
  | .publish => (q, publishHandler cmd args)
  | .send => (q, sendHandler cmd args)

/-- `enqueueMessage`, `MessageAdapter.cc:291-303`: the new queue of the adapter and what is put into the input queue. -/
def enqueueMessage (q : List Msg) (m : Msg) : List Msg × List Item :=
  (q ++ [m], match q with
    | [] => [.received m]
    | _ :: _ => [])

/-- The adapter's queue, the input queue, the state cache, what commands were told (in order). -/
structure Sys where
  queue : List Msg := []
  input : List Item := []
  cache : Cache := fun _ => none
  acks : List (Nat × Nat) := []
  rets : List (Nat × Value) := []

/-- One entry of the input queue, `InterfaceManager.cc:455-589`. -/
def Sys.item (s : Sys) : Item → Option Sys
  | .received m => (messageReceived s.cache m).map (fun c => { s with cache := c })
  | .empty => (messageQueueEmpty s.cache).map (fun c => { s with cache := c })
  | .accept _ none => none
  | .accept m (some h) => (assignMessageHandle s.cache m h).map (fun c => { s with cache := c })
  | .release h => (releaseMessageHandle s.cache h).map (fun c => { s with cache := c })
  | .ack cmd h => some { s with acks := s.acks ++ [(cmd, h)] }
  | .ret cmd v => some { s with rets := s.rets ++ [(cmd, v)] }
  | .value st v => (s.cache.update st v).map (fun c => { s with cache := c })

/-- `processQueue`, `InterfaceManager.cc:455-589`. -/
def Sys.process (s : Sys) : Option Sys := s.input.foldlM Sys.item { s with input := [] }

/-- What happens: a message arrives, the exec executes one of the four commands, another adapter reports a value, the exec processes its input, lookups come and go.
`MessageAdapter.cc`, `InterfaceManager.cc`. -/
inductive Ev
  | receive (m : Msg)
  | execute (k : Kind) (cmd : Nat) (args : List Value)
  | value (s : State) (v : Value)
  | process
  | register (s : State)
  | unregister (s : State)

/-- One event. `MessageAdapter.cc:111-303`, `InterfaceManager.cc:120-158, 455-589`. A lookup of a message state is answered by the default lookup handler, which does
nothing (`LookupHandler.cc:46-49`). -/
def Sys.step (text : Value → Str) (s : Sys) : Ev → Option Sys
  | .receive m => some { s with queue := (enqueueMessage s.queue m).1, input := s.input ++ (enqueueMessage s.queue m).2 }
  | .execute k cmd args => some { s with queue := (Message.execute text s.queue k cmd args).1, input := s.input ++ (Message.execute text s.queue k cmd args).2 }
  | .value st v => some { s with input := s.input ++ [.value st v] }
  | .process => s.process
  | .register st => some { s with cache := s.cache.register st }
  | .unregister st => (s.cache.unregister st).map (fun c => { s with cache := c })

/-- A history. -/
def Sys.run (text : Value → Str) (evs : List Ev) : Option Sys := evs.foldlM (Sys.step text) {}

end Verif.Message
