import Verif.Follow.Model
import Verif.Listen.Spec
import Verif.Exec.Spec
set_option autoImplicit false
/-!
Vocabulary for C152: what can be known from what a listener was told.
-/
namespace Verif.Follow
open Verif.Exec (NodeId)
open Verif.Listen (Report)

variable {Val Env : Type} {Pl : Type}

/-- What a listener was told. -/
abbrev Told (Val Pl : Type) := List (Report NodeId (Nat × Val) Pl)

/-- An event of the executive, as a report; commands, aborts, updates, starts of bodies and ends of steps are not reported. -/
def report (P : Verif.Exec.Plan Val Env) : Verif.Exec.Event Val Env → Option (Report NodeId (Nat × Val) Pl)
  | .trans n a b _ => some (.transition ⟨n, text a, text b⟩)
  | .assign n v => some (.assignment ((P.node n).dest, v))
  | .retract n v => some (.assignment ((P.node n).dest, v))
  | _ => none

/-- The new state of a node in the last report about it. -/
def lastTold (n : NodeId) : Told Val Pl → Option Verif.Text.NState
  | [] => none
  | .transition t :: rest => (lastTold n rest).or (if t.node = n then some t.new else none)
  | _ :: rest => lastTold n rest

/-- What the reports say about the value of variable `v`: the last value assigned, unless the node that declares it has begun to execute since (then the variable has its initial value, which is not
reported). `x`: what was known before. -/
def followVar (P : Verif.Exec.Plan Val Env) (v : Nat) : Told Val Pl → Option Val → Option Val
  | [], x => x
  | .transition t :: rest, x => followVar P v rest (if t.new = .executing ∧ v ∈ (P.node t.node).locals.map Prod.fst then none else x)
  | .assignment a :: rest, x => followVar P v rest (if a.1 = v then some a.2 else x)
  | .plan _ :: rest, x => followVar P v rest x

end Verif.Follow
