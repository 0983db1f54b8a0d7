import Verif.Exec.Spec
/-
Specification of when a node changes state and with what result, in terms of the conditions written in the plan, the states of other nodes and
the completion of actions: the user-level counterpart of `Exec.decideNext`. It mentions neither the condition wrappers
(`specializedCreateConditionWrappers`) nor the order in which the code looks at conditions.
Source of the rules: PLEXIL reference manual, "Node state transition diagrams".
-/
namespace Verif.Exec
open Verif.Node

variable {Val Env : Type}

/-- The condition is given in the plan and is known to be true. -/
def IsTrue (c : UCond Val Env) (o : Obs Val Env) : Prop := ∃ f, c = some f ∧ f o = some true
/-- The condition is given in the plan and is known to be false. -/
def IsFalse (c : UCond Val Env) (o : Obs Val Env) : Prop := ∃ f, c = some f ∧ f o = some false
/-- The condition is not given in the plan, or is known to be true. -/
def Met (c : UCond Val Env) (o : Obs Val Env) : Prop := ∀ f, c = some f → f o = some true
/-- The condition is given in the plan and its value is unknown. -/
def IsUnknown (c : UCond Val Env) (o : Obs Val Env) : Prop := ∃ f, c = some f ∧ f o = none

variable (P : Plan Val Env) (o : Obs Val Env) (n : NodeId)

/-- The Exit condition of an ancestor is true. -/
def AncExits : Prop := ∃ a ∈ (P.node n).anc, IsTrue (P.node a).exit o
/-- The invariant of an ancestor is false. -/
def AncInvFails : Prop := ∃ a ∈ (P.node n).anc, IsFalse (P.node a).inv o
/-- An ancestor has an End condition in the plan, and it is true. -/
def AncEnds : Prop := ∃ a ∈ (P.node n).anc, IsTrue (P.node a).endc o

/-- The state of the parent is `x`. -/
def ParentIn (x : NState) : Prop := ∃ p, (P.node n).anc.head? = some p ∧ o.st p = x

/-- When a node ends: a list without End condition when all its children are FINISHED; an update when it has been acknowledged and its End condition is
met; a command when it has no End condition, or that is true, or the command handle says that it failed or was denied. -/
def Ends : Prop :=
  match (P.node n).type with
  | .list => IsTrue (P.node n).endc o ∨ ((P.node n).endc = none ∧ ∀ c ∈ (P.node n).children, o.st c = .finished)
  | .update => o.ack n = true ∧ Met (P.node n).endc o
  | .command => Met (P.node n).endc o ∨ (P.node n).interruptible o = some true
  | _ => Met (P.node n).endc o

/-- When the action of a node is over: the assignment has been made; the update has been acknowledged; the command handle is known; no child is
busy. -/
def ActionOver : Prop :=
  match (P.node n).type with
  | .empty => True
  | .assignment | .update => o.ack n = true
  | .command => (P.node n).handleKnown o = some true
  | .list => ∀ c ∈ (P.node n).children, o.st c = .waiting ∨ o.st c = .finished

/-- When the clean-up of a failing node is over: the assignment has been undone; the command has been aborted; the update has been acknowledged;
no child is busy. -/
def CleanUpOver : Prop :=
  match (P.node n).type with
  | .assignment => o.abort n = true
  | .command => (P.node n).abortDone o = some true
  | .empty => False
  | _ => ActionOver P o n

/-- Why a node has to stop, and whether the reason is its own. The first reason in the order ancestor's Exit, own Exit, ancestor's Invariant,
own Invariant counts. -/
inductive Stops : Bool → Outcome → Failure → Prop
  | parentExited : AncExits P o n → Stops false .interrupted .parentExited
  | exited : ¬ AncExits P o n → IsTrue (P.node n).exit o → Stops true .interrupted .exited
  | parentFailed : ¬ AncExits P o n → ¬ IsTrue (P.node n).exit o → AncInvFails P o n → Stops false .failure .parentFailed
  | failed : ¬ AncExits P o n → ¬ IsTrue (P.node n).exit o → ¬ AncInvFails P o n → IsFalse (P.node n).inv o →
      Stops true .failure .invFailed

/-- None of the above. -/
def GoesOn : Prop := ¬ AncExits P o n ∧ ¬ IsTrue (P.node n).exit o ∧ ¬ AncInvFails P o n ∧ ¬ IsFalse (P.node n).inv o

/-- A waiting node is skipped. -/
def Skips : Prop := AncExits P o n ∨ IsTrue (P.node n).exit o ∨ AncInvFails P o n ∨ AncEnds P o n ∨ IsTrue (P.node n).skip o

/-- `Rule P o n a d`: a node `n` in state `a`, looking at situation `o`, moves on as described by `d` (new state; new outcome and failure type, if
they are set). -/
inductive Rule : NState → Dest → Prop
  | wakeRoot : (P.node n).anc = [] → Rule .inactive ⟨.waiting, .none, .none⟩
  | wakeChild : ParentIn P o n .executing → ¬ AncExits P o n → ¬ AncInvFails P o n → ¬ AncEnds P o n →
      Rule .inactive ⟨.waiting, .none, .none⟩
  | skipChild : ParentIn P o n .executing → AncExits P o n ∨ AncInvFails P o n ∨ AncEnds P o n → Rule .inactive ⟨.finished, .skipped, .none⟩
  | parentOver : ParentIn P o n .finished → Rule .inactive ⟨.finished, .skipped, .none⟩
  | skip : Skips P o n → Rule .waiting ⟨.finished, .skipped, .none⟩
  | start : ¬ Skips P o n → Met (P.node n).start o → Met (P.node n).pre o → Rule .waiting ⟨.executing, .none, .none⟩
  | preFails : ¬ Skips P o n → Met (P.node n).start o → ¬ Met (P.node n).pre o → Rule .waiting ⟨.iterationEnded, .failure, .preFailed⟩
  /-- An empty node that is stopped is done; others have to clean up. -/
  | stopEmpty {own out f} : (P.node n).type = .empty → Stops P o n own out f →
      Rule .executing ⟨if own then .iterationEnded else .finished, out, f⟩
  /-- An assignment is stopped only after it has been made. -/
  | stop {own out f} : (P.node n).type ≠ .empty → ((P.node n).type = .assignment → ActionOver P o n) → Stops P o n own out f →
      Rule .executing ⟨.failing, out, f⟩
  | stopFinishing {own out f} : Stops P o n own out f → Rule .finishing ⟨.failing, out, f⟩
  | finishing : (P.node n).type = .command ∨ (P.node n).type = .list → GoesOn P o n → Ends P o n → Rule .executing ⟨.finishing, .none, .none⟩
  | succeed : (P.node n).type ≠ .command → (P.node n).type ≠ .list → ((P.node n).type = .assignment → ActionOver P o n) →
      GoesOn P o n → Ends P o n → Met (P.node n).post o → Rule .executing ⟨.iterationEnded, .success, .none⟩
  | postFails : (P.node n).type ≠ .command → (P.node n).type ≠ .list → ((P.node n).type = .assignment → ActionOver P o n) →
      GoesOn P o n → Ends P o n → ¬ Met (P.node n).post o → Rule .executing ⟨.iterationEnded, .failure, .postFailed⟩
  | succeedFinishing : GoesOn P o n → ActionOver P o n → Met (P.node n).post o → Rule .finishing ⟨.iterationEnded, .success, .none⟩
  | postFailsFinishing : GoesOn P o n → ActionOver P o n → ¬ Met (P.node n).post o → Rule .finishing ⟨.iterationEnded, .failure, .postFailed⟩
  | cleanedUp : CleanUpOver P o n → o.fail n ≠ .parentFailed → o.fail n ≠ .parentExited → Rule .failing ⟨.iterationEnded, .none, .none⟩
  | cleanedUpParent : CleanUpOver P o n → o.fail n = .parentFailed ∨ o.fail n = .parentExited → Rule .failing ⟨.finished, .none, .none⟩
  | endedParentExits : AncExits P o n → Rule .iterationEnded ⟨.finished, .interrupted, .parentExited⟩
  | endedParentFails : ¬ AncExits P o n → AncInvFails P o n → Rule .iterationEnded ⟨.finished, .failure, .parentFailed⟩
  | endedParentEnds : ¬ AncExits P o n → ¬ AncInvFails P o n → AncEnds P o n → Rule .iterationEnded ⟨.finished, .none, .none⟩
  | again : ¬ AncExits P o n → ¬ AncInvFails P o n → ¬ AncEnds P o n → IsTrue (P.node n).rep o → Rule .iterationEnded ⟨.waiting, .none, .none⟩
  | done : ¬ AncExits P o n → ¬ AncInvFails P o n → ¬ AncEnds P o n → ¬ IsTrue (P.node n).rep o → ¬ IsUnknown (P.node n).rep o →
      Rule .iterationEnded ⟨.finished, .none, .none⟩
  | rewind : ParentIn P o n .waiting → Rule .finished ⟨.inactive, .none, .none⟩

end Verif.Exec
