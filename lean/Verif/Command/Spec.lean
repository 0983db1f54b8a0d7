import Verif.Command.Model
/-!
Specification of C80-C84: what a command is, in terms of what happened to it. Nothing here refers to the members of the implementation.
-/
namespace Verif.Command
open Verif.Arbiter (Request one)
variable {Env V : Type}

/-- The environment at the last start and everything that happened after it, if the node has not left since. -/
def running (evs : List (Ev Env V)) : Option (Env × List (Ev Env V)) :=
  evs.foldl (fun r ev => match ev with
    | .start e => some (e, [])
    | .leave => none
    | x => r.map (fun p => (p.1, p.2 ++ [x]))) none

/-- What happened during the last execution, whether it is over or not. -/
def lastExecution (evs : List (Ev Env V)) : List (Ev Env V) :=
  (evs.foldl (fun (r : Bool × List (Ev Env V)) ev => match ev with
    | .start _ => (true, [])
    | .leave => (false, r.2)
    | x => (r.1, if r.1 then r.2 ++ [x] else r.2)) (false, [])).2

/-- The handles acknowledged, in order. -/
def handles (l : List (Ev Env V)) : List Nat := l.filterMap (fun | .ack h => some h | _ => none)
/-- The acknowledgements of an abort, in order. -/
def abortAcks (l : List (Ev Env V)) : List Bool := l.filterMap (fun | .abortAck b => some b | _ => none)
/-- The values returned, in order. -/
def returns (l : List (Ev Env V)) : List V := l.filterMap (fun | .ret v => some v | _ => none)
/-- All values returned while the command was being executed. -/
def returnsWhileRunning (evs : List (Ev Env V)) : List V :=
  (evs.foldl (fun (r : Bool × List V) ev => match ev with
    | .start _ => (true, r.2)
    | .leave => (false, r.2)
    | .ret v => (r.1, if r.1 then r.2 ++ [v] else r.2)
    | _ => r) (false, [])).2
/-- Number of active references to the handle of the command from elsewhere in the plan. -/
def watchers (evs : List (Ev Env V)) : Int :=
  (evs.map (fun ev => match ev with | .watch => (1 : Int) | .unwatch => -1 | _ => 0)).sum

/-- What a resource request evaluates to: priority, name and amount as given, amount 1 and release at the end unless given; not at all if something given is unknown. -/
def wanted (e : Env) (r : ResSpec Env) : Option Request :=
  match r.name.val e, r.priority.val e, (r.upper.map (·.val e)).getD (some one), (r.release.map (·.val e)).getD (some true) with
  | some n, some p, some u, some rel => some ⟨n, u, p, rel⟩
  | _, _, _, _ => none

/-- A response as it counts: an invalid handle is COMMAND_INTERFACE_ERROR. -/
def counted : Ev Env V → Ev Env V
  | .ack h => .ack (if 48 < h ∧ h < 58 then h else 57)
  | x => x

/-- The order in which things reach the command: what the plan does at once, responses when the queue is processed, in the order in which they were posted. -/
def delivered (evs : List (QEv Env V)) : List (Ev Env V) × List (Ev Env V) :=
  evs.foldl (fun (r : List (Ev Env V) × List (Ev Env V)) ev => match ev with
    | .plan x => (r.1 ++ [x], r.2)
    | .post x => (r.1, r.2 ++ [counted x])
    | .process => (r.1 ++ r.2, [])) ([], [])

/-! Updates -/

/-- As `running`, for updates. -/
def uRunning (evs : List (UEv Env)) : Option (Env × List (UEv Env)) :=
  evs.foldl (fun r ev => match ev with
    | .start e => some (e, [])
    | .leave => none
    | x => r.map (fun p => (p.1, p.2 ++ [x]))) none
/-- Starts and leaves alternate, FAILING is entered at most once and only in between: what the node does (C01). -/
def UAlternating : Bool → List (UEv Env) → Prop
  | _, [] => True
  | false, .start _ :: l => UAlternating true l
  | true, .leave :: l => UAlternating false l
  | true, .fail :: l => UAlternating true l
  | b, .ack _ :: l => UAlternating b l
  | _, _ => False
/-- The acknowledgements, in order. -/
def uAcks (l : List (UEv Env)) : List Bool := l.filterMap (fun | .ack b => some b | _ => none)

/-! Handlers -/

/-- The last registration of a command handler that lists the name. -/
def lastCommandReg {H : Type} (name : String) (regs : List (Reg H)) : Option H :=
  (regs.filterMap (fun | .command h ns => if name ∈ ns then some h else none | _ => none)).getLast?
/-- The last default command handler set. -/
def lastDefaultCommand {H : Type} (regs : List (Reg H)) : Option H :=
  (regs.filterMap (fun | .defaultCommand h => some h | _ => none)).getLast?
/-- The last registration of a lookup handler that lists the name. -/
def lastLookupReg {H : Type} (name : String) (regs : List (Reg H)) : Option H :=
  (regs.filterMap (fun | .lookup h ns => if name ∈ ns then some h else none | _ => none)).getLast?
/-- The last default lookup handler set. -/
def lastDefaultLookup {H : Type} (regs : List (Reg H)) : Option H :=
  (regs.filterMap (fun | .defaultLookup h => some h | _ => none)).getLast?

end Verif.Command
