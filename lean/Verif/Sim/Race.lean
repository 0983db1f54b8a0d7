import Verif.Sim.Model
set_option autoImplicit false
/-!
Two calls of `handleWakeUp` at a time: the simulator's own thread (`Simulator.cc:159-176`) and the thread of the messaging system, which calls `scheduleResponseForCommand`
(`IpcCommRelay.cc:113-117`, `Simulator.cc:190-203, 285-295`). Only the loop (`Simulator.cc:315-336`); the agenda locks its mutex in every call (`Agenda.cc:70-122`), so each of these is one step.
-/
namespace Verif.Sim
variable {V : Type}

/-- Where a thread is: before `empty()` (`Simulator.cc:315`), before `nextResponseTime()` (`:316`), before `popResponse()` (`:322`), behind the loop. -/
inductive Pc | test | look | pop | done
deriving DecidableEq

/-- The agenda, the two threads with the time they have read, what was sent (when due; the time the sender had read). `Simulator.cc:303-336`. -/
structure Race (V : Type) where
  agenda : Agenda V
  pc : Bool → Pc := fun _ => .test
  now : Bool → Int
  sent : List (Int × Int × Msg V) := []

/-- A thread goes on. -/
def Race.goto (s : Race V) (i : Bool) (p : Pc) : Race V := { s with pc := fun j => if j = i then p else s.pc j }

/-- One step of thread `i`; `none` = the check at `Simulator.cc:323` fails, or nothing to do. `nextResponseTime` of an empty agenda is zero (`Agenda.cc:94-101`). -/
def Race.step (s : Race V) (i : Bool) : Option (Race V) :=
  match s.pc i with
  | .test => some (s.goto i (if s.agenda.isEmpty then .done else .look))
  | .look => some (s.goto i (if (match s.agenda with
      | [] => 0
      | e :: _ => e.1) > s.now i then .done else .pop))
  | .pop => match s.agenda with
    | [] => none
    | (t, m) :: r => some ({ s with agenda := r, sent := s.sent ++ [(t, s.now i, m)] }.goto i .test)
  | .done => some s

end Verif.Sim
