import Verif.Script.Model
/-
Specification of TestExec: what has happened, as seen from outside.
-/
set_option autoImplicit false
namespace Verif.Script
open Verif.Text (Handle)

variable {V C U P : Type} [DecidableEq V]

/-- The latest thing `f` finds in what has happened. -/
def latest {α β : Type} (f : β → Option α) (l : List β) : Option α := l.reverse.findSome? f

/-- The executive sends command `st` (not one TestExec performs itself): the command. -/
def sends (st : State V) : Obs V C U P → Option C
  | .ask (.execute c st' _) => if st' = st ∧ st.name ∉ ["print", "pprint", "printToString", "pprintToString"] then some c else none
  | _ => none

/-- The executive sends command `st` and expects a result: the command; the script gives a result for `st`: nobody expects one any more. -/
def expects (st : State V) : Obs V C U P → Option (Option C)
  | .ask (.execute c st' true) => if st' = st ∧ st.name ∉ ["print", "pprint", "printToString", "pprintToString"] then some (some c) else none
  | .read (.result st' _) => if st' = st then some none else none
  | _ => none

/-- The executive asks for an abort of command `st`; the script acknowledges an abort of `st`. -/
def aborts (st : State V) : Obs V C U P → Option (Option C)
  | .ask (.abort c st') => if st' = st then some (some c) else none
  | .read (.abortAck st' _) => if st' = st then some none else none
  | _ => none

/-- The script gives a value to state `st`. -/
def gives (st : State V) : Obs V C U P → Option (Option V)
  | .read (.value st' v) => if st' = st then some v else none
  | _ => none

/-- The update of node `n` that waits for an acknowledgement, after one thing that happens: an update waits until it is acknowledged, one that comes meanwhile does not. -/
def waits (n : String) (w : Option U) : Obs V C U P → Option U
  | .ask (.update u n') => if n' = n then w.or (some u) else w
  | .read (.updateAck n') => if n' = n then none else w
  | _ => w

/-- The update of node `n` that waits for an acknowledgement: the first one since the last acknowledgement. -/
def waiting (n : String) (tr : List (Obs V C U P)) : Option U := tr.foldl (waits n) none

/-- The value of `st` according to what has happened: the last the script gave it; without one, the time is 0.0 and everything else unknown. -/
def valueOf (zero : V) (st : State V) (tr : List (Obs V C U P)) : Option V :=
  match latest (gives st) tr with
  | some v => v
  | none => if st = ⟨"time", []⟩ then some zero else none

/-- One more thing has happened: a step closes a list of items, an item that was read goes to the list that is open. -/
def byStep (s : List (List (Item V P)) × List (Item V P)) : Obs V C U P → List (List (Item V P)) × List (Item V P)
  | .step => (s.1 ++ [s.2], [])
  | .read i => (s.1, s.2 ++ [i])
  | _ => s

/-- The items of the script that were read, by steps: before each step since the one before it; and since the last step. -/
def bySteps (tr : List (Obs V C U P)) : List (List (Item V P)) × List (Item V P) := tr.foldl byStep ([], [])

/-- What is written in an element of a script. -/
def Elem.contents : Elem V P → List (Item V P)
  | .one i => [i]
  | .simultaneous l => l

end Verif.Script
