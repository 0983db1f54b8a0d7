import Verif.Exec.NotifySpec
import Verif.Notify.Spec
import Verif.Props.Node
set_option autoImplicit false
/-!
Specification for C94: a plan whose conditions are expressions of a network as in `Notify/Model.lean`.
-/
namespace Verif.Exec
open Verif.Node Verif.Notify
open Verif.Props.Node (reads)

/-- The conditions a node may evaluate: its own, and those of its ancestors. `NodeImpl.hh:60-90`. -/
inductive CondOf
  | ancExit | ancInv | ancEnd
  | own (x : Slot)
deriving DecidableEq

/-- The value of a condition. -/
def CondOf.get : CondOf → Conds → Cond
  | .ancExit, c => c.ancExit
  | .ancInv, c => c.ancInv
  | .ancEnd, c => c.ancEnd
  | .own .skip, c => c.skip
  | .own .start, c => c.start
  | .own .pre, c => c.pre
  | .own .exit, c => c.exit
  | .own .inv, c => c.inv
  | .own .endc, c => c.endc
  | .own .post, c => c.post
  | .own .rep, c => c.rep
  | .own .actionComplete, c => c.actionComplete
  | .own .abortComplete, c => c.abortComplete
  | .own _, _ => none

/-- The conditions a node of this type looks at in this state. -/
def looksAt (t : NodeType) (s : NState) : CondOf → Prop
  | .own x => x ∈ reads t s
  | _ => True

/-- The source `v` (a node, a variable, a lookup, …) is an operand of `e`, at any depth, but not below a lookup. -/
inductive Occurs (G : Graph) (v : Nat) : Nat → Prop
  | self : (G.kind v).source = true → Occurs G v v
  | proxy {e : Nat} : G.kind e = .proxy v → Occurs G v e
  | func {e c : Nat} {ss as : List Nat} : G.kind e = .func ss as → c ∈ ss → Occurs G v c → Occurs G v e

/-- A plan wired up through a network of expressions:
* every condition of a node that is not constant is an expression of the network, a function of the sources that occur in it;
* in every situation a node listens to the conditions it looks at, and they are active (C31);
* every source publishes when its value changes;
* and then those nodes are notified whom the network tells. -/
structure Wiring {Val Env : Type} (P : Plan Val Env) where
  G : Graph
  noAlias : G.NoAlias
  /-- What has been done to the network when the situation is `o`. -/
  history : Obs Val Env → List Ev
  balanced : ∀ o, Balanced (history o)
  /-- Which lookups publish when their parameters change. -/
  relay : Nat → Bool
  /-- The expression of a condition. -/
  expr : NodeId → CondOf → Option Nat
  counts : ∀ k c e, expr k c = some e → (G.kind e).counts = true
  /-- The values of sources. -/
  Value : Type
  look : Nat → Obs Val Env → Value
  value : ∀ k c o1 o2, (∀ e v, expr k c = some e → Occurs G v e → look v o1 = look v o2) → c.get (conds P o1 k) = c.get (conds P o2 k)
  heard : ∀ o k c e, looksAt (P.node k).type (o.st k) c → expr k c = some e → 0 < held (history o) e ∧ G.listening (history o) e k = true
  /-- Which sources publish. -/
  published : Source → List Nat
  trans : ∀ (n : NodeId) (o1 om o2 : Obs Val Env), MovedBy P n o1 o2 → om.st = o1.st → om.vars = o2.vars → om.env = o1.env →
    ∀ v, look v o1 ≠ look v o2 → v ∈ published (.pre n) ∨ v ∈ published (.post n)
  assign : ∀ n o1 o2, WrittenBy P n o1 o2 → ∀ v, look v o1 ≠ look v o2 → v ∈ published (.assign n) ∧ v ∈ published (.retract n)
  ack : ∀ n o1 o2, WrittenBy P n o1 o2 → o1.vars = o2.vars → ∀ v, look v o1 ≠ look v o2 → v ∈ published (.ack n)
  wake : ∀ x o, P.wake x o = (published x).flatMap (G.publish relay (G.run (history o)))

end Verif.Exec
