/-!
Model of the executive's input queue, `/repo/src/app-framework/SimpleInputQueue.cc` and `SerializedInputQueue.cc` (the same code with a mutex
around each operation), of its entries, `/repo/src/intfc/QueueEntry.cc`, and of the two ends: the API functions that queue something and
the loop that takes it out, `/repo/src/app-framework/InterfaceManager.cc`.

A history is any interleaving of any number of producers and the one consumer; an operation on the queue is one step (the mutex); a
producer initialises its entry between `allocate` and `put` without the mutex.  Pointers are numbers.  `new` yields a pointer never used
before.  Values, states, commands, plans and messages are numbers, except where their type is tested; 0 is the null pointer where the code tests
for it.  Not modelled: destruction of the queue.
-/
namespace Verif.Input

/-- A `Value`, as far as `processQueue` tells types apart. `InterfaceManager.cc:455-600`. -/
inductive Val
  | other (n : Nat)
  | handle (n : Nat)
  | bool (b : Bool)
  | str (s : List Char)
deriving DecidableEq, Repr

/-- `QueueEntryType`, `QueueEntry.hh:42-58`. -/
inductive Kind
  | uninited | lookup | commandAck | commandReturn | commandAbort | updateAck | addPlan | receiveMsg | acceptMsg | releaseMsgHandle
  | msgQueueEmpty | mark
deriving DecidableEq, Repr

/-- `QueueEntry`, `QueueEntry.hh:64-79`; `ptr` is the union (0 for null), `value = none` the unknown value. -/
structure Cell where
  next : Option Nat := none
  ptr : Nat := 0
  value : Option Val := none
  kind : Kind := .uninited
deriving DecidableEq, Repr

/-- What is submitted, and what the executive gets. `InterfaceManager.cc:230-450`. -/
inductive Msg
  | lookup (state : Nat) (v : Val)
  | commandAck (cmd h : Nat)
  | commandReturn (cmd : Nat) (v : Val)
  | commandAbort (cmd : Nat) (ack : Bool)
  | updateAck (upd : Nat) (ack : Bool)
  | addPlan (p : Nat)
  | receiveMsg (m : Nat)
  | acceptMsg (m : Nat) (h : List Char)
  | releaseMsgHandle (h : List Char)
  | msgQueueEmpty
  | mark (n : Nat)
deriving DecidableEq, Repr

/-- The checks before `allocate`, `InterfaceManager.cc:97-361`: `none` if only a warning is given.  Command handles are the values
49-57 of `CommandHandle.hh:39-52`; others become `COMMAND_INTERFACE_ERROR`. -/
def check : Msg → Option Msg
  | .commandAck 0 _ => none
  | .commandAck c h => some (.commandAck c (if h ≤ 48 ∨ 58 ≤ h then 57 else h))
  | .commandReturn 0 _ => none
  | .commandAbort 0 _ => none
  | .updateAck 0 _ => none
  | .receiveMsg 0 => none
  | .acceptMsg 0 _ => none
  | .acceptMsg _ [] => none
  | .releaseMsgHandle [] => none
  | m => some m

/-- `QueueEntry::initFor...`, `QueueEntry.cc:52-148`.  The state is copied by `new` (54), and a plan comes from `parsePlan`
(`InterfaceManager.cc:351`), so these pointers are not null. -/
def Cell.init (c : Cell) : Msg → Cell
  | .lookup s v => { c with ptr := s + 1, value := some v, kind := .lookup }
  | .commandAck p h => { c with ptr := p, value := some (.handle h), kind := .commandAck }
  | .commandReturn p v => { c with ptr := p, value := some v, kind := .commandReturn }
  | .commandAbort p b => { c with ptr := p, value := some (.bool b), kind := .commandAbort }
  | .updateAck p b => { c with ptr := p, value := some (.bool b), kind := .updateAck }
  | .addPlan p => { c with ptr := p + 1, kind := .addPlan }
  | .receiveMsg m => { c with ptr := m, kind := .receiveMsg }
  | .acceptMsg m _ => { c with ptr := m, kind := .acceptMsg }
  | .releaseMsgHandle h => { c with value := some (.str h), kind := .releaseMsgHandle }
  | .msgQueueEmpty => { c with kind := .msgQueueEmpty }
  | .mark n => { c with ptr := n, kind := .mark }

/-- `QueueEntry::reset`, `QueueEntry.cc:42-50`. -/
def Cell.reset (_ : Cell) : Cell := {}

/-- What `processQueue` hands to the executive for an entry, `InterfaceManager.cc:463-580`; `none` if an assertion fails or the type is
invalid.  (The value of a lookup or command return is known here: unknown values are not told apart from others.) -/
def Cell.read (c : Cell) : Option Msg :=
  match c.kind with
  | .mark => some (.mark c.ptr)
  | .lookup => if c.ptr = 0 then none else c.value.map (.lookup (c.ptr - 1))
  | .commandAck => if c.ptr = 0 then none else match c.value with
    | some (.handle h) => some (.commandAck c.ptr h)
    | _ => none
  | .commandReturn => if c.ptr = 0 then none else c.value.map (.commandReturn c.ptr)
  | .commandAbort => if c.ptr = 0 then none else match c.value with
    | some (.bool b) => some (.commandAbort c.ptr b)
    | _ => none
  | .updateAck => if c.ptr = 0 then none else match c.value with
    | some (.bool b) => some (.updateAck c.ptr b)
    | _ => none
  | .addPlan => if c.ptr = 0 then none else some (.addPlan (c.ptr - 1))
  | .receiveMsg => some (.receiveMsg c.ptr)
  | .msgQueueEmpty => some .msgQueueEmpty
  | .acceptMsg => match c.value with
    | some (.str h) => some (.acceptMsg c.ptr h)
    | _ => none
  | .releaseMsgHandle => match c.value with
    | some (.str h) => some (.releaseMsgHandle h)
    | _ => none
  | .uninited => none

/-- The queue, the memory, and what the threads hold: a producer its allocated entry, what it submits and whether the entry has been
initialised; the consumer the entry got and not yet released. `SimpleInputQueue.cc:50-70`. -/
structure St where
  cell : Nat → Cell := fun _ => {}
  get : Option Nat := none
  put : Option Nat := none
  free : Option Nat := none
  fresh : Nat := 0
  hold : Nat → Option (Nat × Msg × Bool) := fun _ => none
  cur : Option Nat := none

/-- Change a function at one point. (Not in the code: assigning a member of an entry, `QueueEntry.cc`.) -/
def upd {β : Type} (f : Nat → β) (t : Nat) (x : β) : Nat → β := fun i => if i = t then x else f i

/-- `allocate`, `SimpleInputQueue.cc:62-70`. -/
def St.allocate (s : St) : St × Nat :=
  match s.free with
  | some p => ({ s with free := (s.cell p).next }, p)
  | none => ({ s with fresh := s.fresh + 1, cell := upd s.cell s.fresh {} }, s.fresh)

/-- `release`, `SimpleInputQueue.cc:72-78`. -/
def St.release (s : St) (p : Nat) : St :=
  { s with cell := upd s.cell p { (s.cell p).reset with next := s.free }, free := some p }

/-- `put`, `SimpleInputQueue.cc:80-89`. -/
def St.putEntry (s : St) (p : Nat) : St :=
  let c₁ := upd s.cell p { s.cell p with next := none }
  let c₂ := match s.put with
    | some q => upd c₁ q { c₁ q with next := some p }
    | none => c₁
  { s with cell := c₂, put := some p, get := match s.get with | none => some p | some q => some q }

/-- `get`, `SimpleInputQueue.cc:91-102`: the entry, or `none` in the second component if the assertion fails. -/
def St.getEntry (s : St) : St × Option (Option Nat) :=
  match s.get with
  | none => (s, some none)
  | some p =>
    match (s.cell p).next with
    | some q => ({ s with get := some q }, some (some p))
    | none => if s.put = some p then ({ s with get := none, put := none }, some (some p)) else (s, none)

/-- The loop of `flush`, `SimpleInputQueue.cc:106-110`, by a number of iterations; the count of entries ever made is enough. -/
def St.flushLoop (s : St) : Nat → St
  | 0 => s
  | n + 1 => match s.get with
    | some p => St.flushLoop (({ s with get := (s.cell p).next } : St).release p) n
    | none => s

/-- `flush` of the unserialised queue, `SimpleInputQueue.cc:104-112`. -/
def St.flush (s : St) : St := { s.flushLoop s.fresh with put := none }

/-- What the threads do. `InterfaceManager.cc:230-450, 455-600`, `InputQueue.hh`. -/
inductive Op
  /-- the beginning of an API call up to `allocate` -/
  | submit (t : Nat) (m : Msg)
  /-- `initFor...` -/
  | init (t : Nat)
  /-- `put` -/
  | put (t : Nat)
  /-- `isEmpty` -/
  | isEmpty
  /-- `get` -/
  | get
  /-- the entry got is read -/
  | read
  /-- `release` -/
  | release
  /-- `flush` -/
  | flush
deriving DecidableEq, Repr

/-- What can be seen of a step. `InterfaceManager.cc:455-600`. -/
inductive Out
  | silent
  /-- the call was refused with a warning -/
  | refused
  | empty (b : Bool)
  /-- `get` returned an entry or null -/
  | got (b : Bool)
  /-- the executive is given this -/
  | given (m : Msg)
  /-- an assertion fails -/
  | crash
deriving DecidableEq, Repr

/-- One step; `none` if it is not the thread's turn to do this. `SimpleInputQueue.cc`, `InterfaceManager.cc:230-450, 455-600`. -/
def St.step (s : St) : Op → Option (St × Out)
  | .submit t m =>
    match s.hold t with
    | some _ => none
    | none => match check m with
      | none => some (s, .refused)
      | some m' => some ({ s.allocate.1 with hold := upd s.hold t (some (s.allocate.2, m', false)) }, .silent)
  | .init t =>
    match s.hold t with
    | some (p, m, false) => some ({ s with cell := upd s.cell p ((s.cell p).init m), hold := upd s.hold t (some (p, m, true)) }, .silent)
    | _ => none
  | .put t =>
    match s.hold t with
    | some (p, _, true) => some ({ s.putEntry p with hold := upd s.hold t none }, .silent)
    | _ => none
  | .isEmpty => some (s, .empty s.get.isNone)
  | .get =>
    match s.cur with
    | some _ => none
    | none => match s.getEntry with
      | (s', some (some p)) => some ({ s' with cur := some p }, .got true)
      | (s', some none) => some (s', .got false)
      | (s', none) => some (s', .crash)
  | .read =>
    match s.cur with
    | some p => match (s.cell p).read with
      | some m => some (s, .given m)
      | none => some (s, .crash)
    | none => none
  | .release =>
    match s.cur with
    | some p => some ({ s.release p with cur := none }, .silent)
    | none => none
  | .flush => some (s.flush, .silent)

/-- A history and what is seen of it.  After an assertion failure nothing more happens (an exception is thrown). `InterfaceManager.cc:455-600`. -/
def St.run : St → List Op → Option (St × List Out)
  | s, [] => some (s, [])
  | s, o :: os => match s.step o with
    | none => none
    | some (s', .crash) => some (s', [.crash])
    | some (s', r) => match St.run s' os with
      | some (s'', rs) => some (s'', r :: rs)
      | none => none

/-! ## The mutex -/

/-- `SerializedInputQueue::flush` (`SerializedInputQueue.cc:126-137`) by thread `t`: it locks the mutex, and for each entry calls `release`, which
locks it too (`89`).  The steps of one thread, given who owns the (non-recursive) mutex; `none` if it blocks. -/
inductive LockStep
  | lock
  | unlock
deriving DecidableEq, Repr

/-- The calls of lock and unlock made by `flush` with `n` entries in the queue. `SerializedInputQueue.cc:85-137`. -/
def flushLocks (n : Nat) : List LockStep := [.lock] ++ (List.replicate n [LockStep.lock, .unlock]).flatten ++ [.unlock]

/-- Make them with the mutex as it is. `SerializedInputQueue.cc:85-137`. -/
def runLocks : Bool → List LockStep → Option Bool
  | b, [] => some b
  | false, .lock :: l => runLocks true l
  | true, .lock :: _ => none
  | true, .unlock :: l => runLocks false l
  | false, .unlock :: _ => none

end Verif.Input
