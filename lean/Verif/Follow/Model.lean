import Verif.Listen.Model
import Verif.Exec.Model
set_option autoImplicit false
/-!
Model of what the executive tells the listener hub in an execution: the calls of `m_listener` in `/repo/src/exec/PlexilExec.cc` and `/repo/src/exec/Assignment.cc`, put together from the model of the
executive (`Verif.Exec`) and the model of the hub (`Verif.Listen`).

Simplifications: the transitions of one round of the quiescence loop are passed on one by one, not in one vector (the hub appends them to its own vector either way, `ExecListenerHub.cc:60-75`); an
assignment is reported with the number of its variable and the value (the code adds the name of the variable); plans are of arbitrary type.
-/
namespace Verif.Follow
open Verif.Exec (NodeId)

variable {Val Env : Type} {Pl : Type}

/-- The numbers of the states as listeners print them. `NodeConstants.hh:38-47`. -/
def text : Verif.Node.NState → Verif.Text.NState
  | .inactive => .inactive
  | .waiting => .waiting
  | .executing => .executing
  | .iterationEnded => .iterationEnded
  | .finished => .finished
  | .failing => .failing
  | .finishing => .finishing

/-- The calls of the hub that belong to an event of the executive: `notifyOfTransitions`, `PlexilExec.cc:353-358, 367-369`; `notifyOfAssignment` for an assignment and for a retraction,
`Assignment.cc:142-160`; `stepComplete`, `PlexilExec.cc:387-388`. Commands, aborts and updates are not reported (`PlexilExec.cc:610-650`). -/
def calls (P : Verif.Exec.Plan Val Env) : Verif.Exec.Event Val Env → List (Verif.Listen.Ev NodeId (Nat × Val) Pl)
  | .trans n a b _ => [.transitions [⟨n, text a, text b⟩]]
  | .start _ _ => []
  | .stepDone _ => [.stepComplete]
  | .command _ _ => []
  | .deny _ => []
  | .abort _ => []
  | .update _ _ => []
  | .assign n v => [.assignment ((P.node n).dest, v)]
  | .retract n v => [.assignment ((P.node n).dest, v)]

end Verif.Follow
