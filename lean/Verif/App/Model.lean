/-!
Model of the threads of an executive application, `/repo/src/app-framework/ExecApplication.cc` (with `PLEXIL_WITH_THREADS`),
and of the input queue's processing, `/repo/src/app-framework/InterfaceManager.cc`.

One worker thread runs the executive (`worker`, `ExecApplication.cc:847-879`); any number of client threads (adapters, the
main program) call the API.  A history is any interleaving of their steps.  Each step is one access to shared memory (queue, semaphore,
flag).

Simplifications.  The input queue is a list (that the linked structure is one is C55).  What the executive does is left open:
a macro step may finish any of the plans it runs and leave it needing another step or not; but an executive that never got a plan
needs none (`PlexilExec::needsStep`, `PlexilExec.cc:241-244`: it has no candidate nodes).  Adapters called by the executive in the
worker thread appear as client threads.  The exec mutex is held by the worker alone here (background mode, the default,
`ExecApplication.cc:275`); the other mode is `Opp` below.  Counters do not wrap around.  Signals, exceptions and the forced kill of
`stop` are left out.
-/
namespace Verif.App

/-- An entry of the input queue (`QueueEntry.hh`): something the executive must be stepped for, a mark, or a plan. -/
inductive Entry
  | event (id : Nat)
  | mark (n : Nat)
  | plan (p : Nat)
deriving DecidableEq, Repr

/-- Which function the worker is in: `step()` (`ExecApplication.cc:442-475`), called once, or `runExec()` (`479-517`). -/
inductive Cyc
  | step
  | run
deriving DecidableEq, Repr

/-- Where the worker is.
* `start k`: about to read `m_lastMark` and lock (`447-453`, `485-490`)
* `scan0 k`: in the first `processQueue` (`456`, `493`), whose result is ignored
* `exec k`: before `m_exec->step` (`458`, `497`)
* `more`: before the test of `needsStep` (`498`)
* `scan b`: in the `processQueue` of the loop (`500`), `b` its variable `needsStep`
* `tidy k`: before `deleteFinishedPlans` and `allPlansFinished` (`460-461`, `503-504`)
* `report k fin`: before the test of `m_planLoaded && allFinished` (`465`, `508`)
* `marks k`: before the test of `m_lastMark > oldMark` (`469`, `512`)
* `wait`: in `m_sem.wait()` (`891`)
* `woke`: before `while (!m_stop && m_suspended)` (`897`)
* `stopCheck`: before `if (m_stop)` (`864`)
* `ended`: the thread is done. All in `ExecApplication.cc:442-517, 847-879`. -/
inductive WPc
  | start (k : Cyc)
  | scan0 (k : Cyc)
  | exec (k : Cyc)
  | more
  | scan (b : Bool)
  | tidy (k : Cyc)
  | report (k : Cyc) (fin : Bool)
  | marks (k : Cyc)
  | wait
  | woke
  | stopCheck
  | ended
deriving DecidableEq, Repr

/-- Where a client is: outside, or in `addPlan` (`791-816`) before `m_planLoaded = true`, or in
`notifyAndWaitForCompletion` (`684-699`): numbered but not yet queued (`InterfaceManager.cc:429-431`), queued, waiting for `m_markSem`
(`692`), about to pass it on (`693`), about to test `m_lastMark` (`694`).  `before` is what had been queued when the number was taken. -/
inductive CPc
  | idle
  | adding
  | marked (n : Nat) (before : List Entry)
  | queued (n : Nat) (before : List Entry)
  | waiting (n : Nat) (before : List Entry)
  | passing (n : Nat) (before : List Entry)
  | checking (n : Nat) (before : List Entry)
deriving DecidableEq, Repr

/-- The application.  `put`, `seen`, `ran` and `gone` are not in the code: all entries ever queued, those processed, those processed when the
executive was last stepped, and the plans that a step of the executive has finished.  `owes t`: thread `t` has queued something, or cleared `m_suspended` or set `m_stop`, and not called `notifyExec` since. `ExecApplication.cc:200-260`, `InterfaceManager.hh`. -/
structure St where
  queue : List Entry := []
  put : List Entry := []
  seen : List Entry := []
  ran : List Entry := []
  plans : List Nat := []
  gone : List Nat := []
  needs : Bool := false
  sem : Nat := 0
  markSem : Nat := 0
  finSem : Nat := 0
  lastMark : Nat := 0
  markCount : Nat := 0
  oldMark : Nat := 0
  stop : Bool := false
  suspended : Bool := false
  planLoaded : Bool := false
  w : WPc := .start .step
  c : Nat → CPc := fun _ => .idle
  owes : Nat → Bool := fun _ => false

/-- `PlexilExec::allPlansFinished`, `PlexilExec.cc:194-212`, called after `deleteFinishedPlans` (`224-237`), which sets
`m_finishedRootNodesDeleted` even if it deletes nothing: true if there is no plan, also before the first. -/
def St.allFinished (s : St) : Bool := s.plans.isEmpty

/-- The body of the loop in `processQueue`, `InterfaceManager.cc:463-584`: returns whether the executive must be stepped. -/
def St.process (s : St) (e : Entry) : St × Bool :=
  match e with
  | .mark n => ({ s with lastMark := n }, false)
  | .event _ => (s, true)
  | .plan p => ({ s with plans := p :: s.plans }, true)

/-- Take one entry off the queue and process it. `InterfaceManager.cc:455-600`. -/
def St.pop (s : St) (e : Entry) (q : List Entry) : St × Bool :=
  let (t, b) := s.process e
  ({ t with queue := q, seen := s.seen ++ [e] }, b)

/-- The outcome of a macro step: which plans it finishes, and whether another step is needed. `PlexilExec.cc:194-244`. -/
structure Choice where
  finished : List Nat := []
  needs : Bool := false
deriving DecidableEq, Repr

/-- `PlexilExec::step`, `PlexilExec.cc:249-398`, as far as it matters here. -/
def St.execStep (s : St) (ch : Choice) : St :=
  { s with
    plans := s.plans.filter (fun p => p ∉ ch.finished)
    gone := s.gone ++ s.plans.filter (fun p => p ∈ ch.finished)
    needs := ch.needs && s.seen.any (fun e => match e with | .plan _ => true | _ => false)
    ran := s.seen }

/-- The next step of the worker; `none` if it waits or is done. `ExecApplication.cc:442-517, 847-879`. -/
def St.worker (s : St) (ch : Choice) : Option St :=
  match s.w with
  | .start k => some { s with oldMark := s.lastMark, w := .scan0 k }
  | .scan0 k =>
    match s.queue with
    | e :: q => some (s.pop e q).1
    | [] => some { s with w := .exec k }
  | .exec k => some { s.execStep ch with w := match k with | .step => .tidy .step | .run => .more }
  | .more => some { s with w := if s.needs then .exec .run else .scan false }
  | .scan b =>
    match s.queue with
    | e :: q => some { (s.pop e q).1 with w := .scan (b || (s.pop e q).2) }
    | [] => some { s with w := if b then .exec .run else .tidy .run }
  | .tidy k => some { s with w := .report k s.allFinished }
  | .report k fin => some { s with finSem := if s.planLoaded && fin then s.finSem + 1 else s.finSem, w := .marks k }
  | .marks _ => some { s with markSem := if s.oldMark < s.lastMark then s.markSem + 1 else s.markSem, w := .wait }
  | .wait => if 0 < s.sem then some { s with sem := s.sem - 1, w := .woke } else none
  | .woke => some { s with w := if !s.stop && s.suspended then .wait else .stopCheck }
  | .stopCheck => if s.stop then some { s with stop := false, w := .ended } else some { s with w := .start .run }
  | .ended => none

/-- What a client does next. `ExecApplication.cc:530-715`, `InterfaceManager.cc:230-450`. -/
inductive Call
  /-- `handleValueChange` and so on, `InterfaceManager.cc:97-294` -/
  | event (id : Nat)
  /-- `addPlan`, `ExecApplication.cc:807` -/
  | addPlan (p : Nat)
  /-- `m_planLoaded = true`, `ExecApplication.cc:809` -/
  | loaded
  /-- `notifyExec`, `657-681` -/
  | notify
  /-- `suspend`, `550-561` -/
  | suspend
  /-- `m_suspended = false` in `resume` and `stop`, `581, 594`, before `notifyExec` -/
  | resume
  /-- `m_stop = true` in `stop`, `602`, before `notifyExec` -/
  | stop
  /-- `++m_markCount` in `markQueue`, `InterfaceManager.cc:429`, first step of `notifyAndWaitForCompletion` -/
  | number
  /-- the mark is queued, `InterfaceManager.cc:431` -/
  | mark
  /-- `notifyExec`, `ExecApplication.cc:689` -/
  | markNotify
  /-- `m_markSem.wait()`, `692` -/
  | markWait
  /-- `m_markSem.post()`, `693` -/
  | markPost
  /-- the test of `m_lastMark`, `694` -/
  | markCheck
  /-- `waitForPlanFinished`, `704-715` -/
  | waitFinished
deriving DecidableEq, Repr

/-- Change `f` at `t`. (Not in the code; state of one thread of `ExecApplication.cc`.) -/
def upd {β : Type} (f : Nat → β) (t : Nat) (x : β) : Nat → β := fun i => if i = t then x else f i

/-- Queue an entry (`InputQueue::put`). `InterfaceManager.cc:230-450`. -/
def St.enqueue (s : St) (t : Nat) (e : Entry) : St :=
  { s with queue := s.queue ++ [e], put := s.put ++ [e], owes := upd s.owes t true }

/-- `notifyExec` in background mode, `ExecApplication.cc:672`. -/
def St.notify (s : St) (t : Nat) : St := { s with sem := s.sem + 1, owes := upd s.owes t false }

/-- A step of client `t`; `none` if it cannot be taken now. `ExecApplication.cc:530-715`. -/
def St.client (s : St) (t : Nat) (a : Call) : Option St :=
  match s.c t, a with
  | .idle, .event id => some (s.enqueue t (.event id))
  | .idle, .addPlan p => some { s.enqueue t (.plan p) with c := upd s.c t .adding }
  | .adding, .loaded => some { s with planLoaded := true, c := upd s.c t .idle }
  | .idle, .notify => some (s.notify t)
  | .idle, .suspend => some { s with suspended := true }
  | .idle, .resume => some { s with suspended := false, owes := upd s.owes t true }
  | .idle, .stop => some { s with stop := true, owes := upd s.owes t true }
  | .idle, .number => some { s with markCount := s.markCount + 1, c := upd s.c t (.marked (s.markCount + 1) s.put) }
  | .marked n b, .mark => some { s.enqueue t (.mark n) with c := upd s.c t (.queued n b) }
  | .queued n b, .markNotify => some { s.notify t with c := upd s.c t (.waiting n b) }
  | .waiting n b, .markWait => if 0 < s.markSem then some { s with markSem := s.markSem - 1, c := upd s.c t (.passing n b) } else none
  | .passing n b, .markPost => some { s with markSem := s.markSem + 1, c := upd s.c t (.checking n b) }
  | .checking n b, .markCheck => some { s with c := upd s.c t (if s.lastMark < n then .waiting n b else .idle) }
  | .idle, .waitFinished => if 0 < s.finSem then some { s with finSem := s.finSem - 1 } else none
  | _, _ => none

/-- Who moves. (Threads of `ExecApplication.cc`.) -/
inductive Act
  | worker (ch : Choice)
  | client (t : Nat) (a : Call)
deriving Repr

/-- One step of the application. (Threads of `ExecApplication.cc`.) -/
def St.next (s : St) : Act → Option St
  | .worker ch => s.worker ch
  | .client t a => s.client t a

/-- A schedule. (Any interleaving of the threads of `ExecApplication.cc`.) -/
def St.run : St → List Act → Option St
  | s, [] => some s
  | s, a :: as => match s.next a with
    | some s' => St.run s' as
    | none => none

/-- The states reached by schedules all of whose steps obey `P`, from the state after `spawnWorkerThread`
(`ExecApplication.cc:838-844`). -/
inductive Reach (P : St → Act → Prop) : St → Prop
  | init : Reach P {}
  | next {s s' : St} {a : Act} : Reach P s → P s a → s.next a = some s' → Reach P s'

/-! ## The other mode -/

/-- Opportunistic mode (`m_runExecInBkgndOnly` false): the owner of the exec mutex, and for each thread whether it holds the mutex by the
`try_lock` of `notifyExec` (`ExecApplication.cc:662`) and now wants to lock it again in `runExec` (`490`).  The mutex is not recursive. -/
structure Opp where
  owner : Option Nat := none
  relock : Nat → Bool := fun _ => false

/-- What a thread does in this mode. `ExecApplication.cc:655-690`. -/
inductive OppCall
  /-- `notifyExec`, `662-679` -/
  | notify
  /-- `lock_guard` in `runExec` after `try_lock` succeeded -/
  | lock
  /-- `lock_guard` of a thread that does not hold the mutex (the worker; `allPlansFinished`) -/
  | begin
  /-- its release -/
  | release
deriving DecidableEq, Repr

/-- A step of thread `t`; the result says whether `notifyExec` returned. `ExecApplication.cc:655-690`. -/
def Opp.next (s : Opp) (t : Nat) : OppCall → Option (Opp × Bool)
  | .notify => if s.relock t then none else
      if s.owner = none then some (⟨some t, upd s.relock t true⟩, false) else some (s, true)
  | .lock => if s.relock t ∧ s.owner = none then some (⟨some t, upd s.relock t false⟩, false) else none
  | .begin => if ¬ s.relock t ∧ s.owner = none then some (⟨some t, s.relock⟩, false) else none
  | .release => if ¬ s.relock t ∧ s.owner = some t then some (⟨none, s.relock⟩, false) else none

end Verif.App
