import Mathlib.Data.Int.Basic
set_option autoImplicit false
/-!
Model of the stand-alone simulator: `/repo/src/apps/StandAloneSimulator/Agenda.cc`, `CommandResponseManager.cc`, `Simulator.cc`, `TimingService.cc`.

Times are microseconds since the epoch (`timeval`; that its operations compute with microseconds is C60): seconds `t / 1000000`, microseconds `t % 1000000`. Every call of
`gettimeofday` may happen any time after the one before it: the n-th call happens `d n` microseconds later, for an arbitrary `d`. Simplifications: `getitimer` and `setitimer` happen at the
same time as the `gettimeofday` beside them; one call of the simulator runs after the other (see `Sim/Race.lean` for two at a time); the script reader is left out: a script is the list
of its entries. `none` = a failed assertion.
-/
namespace Verif.Sim
variable {V : Type}

/-- `GenericResponse`, `GenericResponse.hh`: value, delay, number of responses (the name is that of the command). -/
structure Resp (V : Type) where
  value : V
  delay : Int
  count : Nat

/-- `CommandResponseManagerImpl`: `m_CmdIdToResponse`, `m_DefaultResponse`, `m_Counter`. `CommandResponseManager.cc:36-55`. -/
structure Mgr (V : Type) where
  responses : List (Nat × Resp V) := []
  dflt : Option (Resp V) := none
  counter : Nat := 1

/-- `std::map::find`. -/
def find {α : Type} (k : Nat) : List (Nat × α) → Option α
  | [] => none
  | (i, a) :: l => if i = k then some a else find k l

/-- `addResponse`, `CommandResponseManager.cc:69-84`. -/
def Mgr.addResponse (m : Mgr V) (r : Resp V) (i : Nat) : Mgr V :=
  match find i m.responses with
  | some _ => m
  | none => if i = 0 then { m with dflt := some r } else { m with responses := (i, r) :: m.responses }

/-- The response `getResponses` chooses, `CommandResponseManager.cc:88-99`. -/
def Mgr.choose (m : Mgr V) : Option (Resp V) :=
  match find m.counter m.responses with
  | none => m.dflt
  | some r => some r

/-- `getResponses`, `CommandResponseManager.cc:86-114`: the outer `none` = the assertion fails; the inner one = the null pointer. -/
def Mgr.getResponses (m : Mgr V) : Option (Mgr V × Option (Resp V)) :=
  match m.choose with
  | none => none
  | some r => some ({ m with counter := m.counter + 1 }, if r.count > 0 then some r else none)

/-- `ResponseMessage`, `ResponseMessage.hh`: name, value, and for a command its identifier (`MSG_COMMAND`), else `none` (`MSG_TELEMETRY`). -/
structure Msg (V : Type) where
  name : String
  value : V
  id : Option Nat := none

/-- `AgendaQueue`, `Agenda.cc:41-42`. -/
abbrev Agenda (V : Type) := List (Int × Msg V)

/-- `scheduleResponse`, `Agenda.cc:115-122`. -/
def insert (t : Int) (m : Msg V) : Agenda V → Agenda V
  | [] => [(t, m)]
  | e :: r => if e.1 < t then e :: insert t m r else (t, m) :: e :: r

/-- `setSimulatorStartTime`, `Agenda.cc:83-91`. -/
def shift (t : Int) (a : Agenda V) : Agenda V := a.map (fun e => (e.1 + t, e.2))

/-- `SimulatorImpl` with its agenda, timing service and managers (`Simulator.cc:49-82`), and the world: the time, the interval timer, whether a SIGALRM is pending.
History variables, not in the code: the times read from the clock; what was scheduled; what was sent: when due, when sent, what, in order. -/
structure St (V : Type) where
  now : Int
  seen : List Int := []
  agenda : Agenda V := []
  timer : Option Int := none
  pending : Bool := false
  started : Bool := false
  lookups : String → Option V := fun _ => none
  mgrs : String → Option (Mgr V) := fun _ => none
  asked : List (Int × Msg V) := []
  sent : List (Int × Int × Msg V) := []

/-- The interval timer (`ITIMER_REAL`): it goes off when its time has come, once; the signal is blocked and stays pending until waited for. `TimingService.cc:68-123, 190`. -/
def St.fire (s : St V) : St V :=
  match s.timer with
  | some t => if t ≤ s.now then { s with timer := none, pending := true } else s
  | none => s

/-- Time passes. -/
def St.advance (s : St V) (n : Nat) : St V := St.fire { s with now := s.now + n }

/-- `gettimeofday`: the time read is `now` afterwards. -/
def St.clock (d : Nat → Nat) (s : St V) : St V :=
  { s.advance (d s.seen.length) with seen := s.seen ++ [s.now + d s.seen.length] }

/-- A response is sent: `Simulator.cc:322-334`. -/
def St.send (s : St V) (t : Int) (m : Msg V) : St V :=
  { s with
    lookups := if m.id.isNone then (fun n => if n = m.name then some m.value else s.lookups n) else s.lookups
    sent := s.sent ++ [(t, s.now, m)] }

/-- The loop of `handleWakeUp`, `Simulator.cc:315-336`; `now` is the local variable. -/
def sendDue (now : Int) : Agenda V → St V → St V
  | [], s => { s with agenda := [] }
  | (t, m) :: r, s => if t > now then { s with agenda := (t, m) :: r } else sendDue now r (s.send t m)

/-- `setTimer`, `TimingService.cc:173-198`, after its `gettimeofday`: `none` = the time is past. Setting the timer to zero switches it off. -/
def St.setTimer (s : St V) (time : Int) : Option (St V) :=
  if time - s.now < 0 then none
  else if time - s.now = 0 then some { s with timer := none }
  else some { s with timer := some time }

/-- The timer is off or set to a later time, `Simulator.cc:280-282`; `getTimer`, `TimingService.cc:204-226`. -/
def mustSet (timer : Option Int) (time : Int) : Bool :=
  match timer with
  | none => true
  | some t => decide (time < t)

/-- `scheduleNextResponse`, `Simulator.cc:277-301`. `k` = `handleWakeUp`. -/
def scheduleNextWith (d : Nat → Nat) (k : St V → Option (St V)) (time : Int) (s : St V) : Option (St V) :=
  if mustSet (s.clock d).timer time then
    match ((s.clock d).clock d).setTimer time with
    | some s' => some s'
    | none => k ((s.clock d).clock d)
  else some (s.clock d)

/-- The end of `handleWakeUp`, `Simulator.cc:343-350`. -/
def afterDue (d : Nat → Nat) (k : St V → Option (St V)) (s : St V) : Option (St V) :=
  match s.agenda with
  | [] => some s
  | (t, _) :: _ => if t / 1000000 ≠ 0 ∧ t % 1000000 ≠ 0 then scheduleNextWith d k t s else some s

/-- `handleWakeUp`, `Simulator.cc:303-352`; it may call itself through `scheduleNextResponse`. The number bounds the depth of this recursion (it is never used up: C92). -/
def handleWakeUp (d : Nat → Nat) : Nat → St V → Option (St V)
  | 0, _ => none
  | n + 1, s => afterDue d (handleWakeUp d n) (sendDue (s.clock d).now (s.clock d).agenda (s.clock d))

/-- `scheduleNextResponse`, `Simulator.cc:277-301`. -/
def scheduleNext (d : Nat → Nat) (n : Nat) (time : Int) (s : St V) : Option (St V) := scheduleNextWith d (handleWakeUp d n) time s

/-- Enough depth. -/
def St.depth (s : St V) : Nat := s.agenda.length + 1

/-- `scheduleMessage`, `Simulator.cc:265-275`. -/
def St.schedule (d : Nat → Nat) (s : St V) (delay : Int) (m : Msg V) : St V :=
  { s.clock d with agenda := insert ((s.clock d).now + delay) m (s.clock d).agenda, asked := (s.clock d).asked ++ [((s.clock d).now + delay, m)] }

/-- `scheduleResponseForCommand`, `constructNextResponse`, `Simulator.cc:190-203, 232-257`. Before the start the timer may not be used (`TimingService.cc:175`). -/
def St.command (d : Nat → Nat) (s : St V) (name : String) (id : Nat) : Option (St V) :=
  match s.mgrs name with
  | none => some (s.clock d)
  | some m =>
    match m.getResponses with
    | none => none
    | some (m', r) =>
      match r with
      | none => some { s.clock d with mgrs := fun n => if n = name then some m' else s.mgrs n }
      | some r =>
        if s.started then
          (fun s2 : St V => scheduleNext d s2.depth (s.clock d).now s2)
            (St.schedule d { s.clock d with mgrs := fun n => if n = name then some m' else s.mgrs n } r.delay { name := name, value := r.value, id := some id })
        else none

/-- `simulatorTopLevel` until it waits, `Simulator.cc:127-153`. -/
def St.start (d : Nat → Nat) (s : St V) : Option (St V) :=
  (fun s1 : St V =>
    match s1.agenda with
    | [] => some s1
    | (t, _) :: _ => if t / 1000000 ≠ 0 ∨ t % 1000000 ≠ 0 then scheduleNext d s1.depth t s1 else some s1)
  { s.clock d with started := true, agenda := shift (s.clock d).now s.agenda, asked := shift (s.clock d).now s.asked }

/-- What happens: a line of the script is read (telemetry `PlexilSimResponseFactory.cc:45-71`, command `:73-113`), the simulator is started, a command arrives, time passes, the
simulator's `wait` returns (`Simulator.cc:159-176`). -/
inductive Ev (V : Type)
  | telemetry (delay : Int) (name : String) (v : V)
  | response (name : String) (i : Nat) (r : Resp V)
  | start
  | command (name : String) (id : Nat)
  | tick (n : Nat)
  | wake

/-- One event; `none` also if it cannot happen: scripts are read before the start (`PlexilSimulator.cc:127-158`), the simulator waits for a pending signal.
`ensureResponseMessageManager`: `SimulatorScriptReader.cc:287-302`. -/
def St.step (d : Nat → Nat) (s : St V) : Ev V → Option (St V)
  | .telemetry delay name v =>
    if s.started then none
    else some { s with agenda := insert delay { name := name, value := v } s.agenda, asked := s.asked ++ [(delay, { name := name, value := v })] }
  | .response name i r =>
    if s.started then none
    else some { s with mgrs := fun n => if n = name then some (((s.mgrs name).getD {}).addResponse r i) else s.mgrs n }
  | .start => if s.started then none else s.start d
  | .command name id => s.command d name id
  | .tick n => some (s.advance n)
  | .wake => if s.started ∧ s.pending then handleWakeUp d ({ s with pending := false } : St V).depth { s with pending := false } else none

/-- A history that begins at time `t`. -/
def run (d : Nat → Nat) (t : Int) (evs : List (Ev V)) : Option (St V) := evs.foldlM (St.step d) { now := t }

end Verif.Sim
