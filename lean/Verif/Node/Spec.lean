import Verif.Node.Model
/-
Specification vocabulary for nodes, independent of the model's functions: the documented state diagrams
(PLEXIL reference manual, "Node state transition diagrams") and the states a node of each type can be in.
-/
namespace Verif.Node

/-- The documented diagram: `Diagram t a b` = a node of type `t` may move from `a` to `b`. -/
inductive Diagram : NodeType → NState → NState → Prop
  | activate (t) : Diagram t .inactive .waiting
  | skipInactive (t) : Diagram t .inactive .finished
  | start (t) : Diagram t .waiting .executing
  | skip (t) : Diagram t .waiting .finished
  | preFailed (t) : Diagram t .waiting .iterationEnded
  | emptyEnd : Diagram .empty .executing .iterationEnded
  | emptyStop : Diagram .empty .executing .finished
  | assignEnd : Diagram .assignment .executing .iterationEnded
  | assignFail : Diagram .assignment .executing .failing
  | updateEnd : Diagram .update .executing .iterationEnded
  | updateFail : Diagram .update .executing .failing
  | commandFinishing : Diagram .command .executing .finishing
  | commandFail : Diagram .command .executing .failing
  | listFinishing : Diagram .list .executing .finishing
  | listFail : Diagram .list .executing .failing
  | finishingEnd {t} : t = .command ∨ t = .list → Diagram t .finishing .iterationEnded
  | finishingFail {t} : t = .command ∨ t = .list → Diagram t .finishing .failing
  | failingEnd {t} : t ≠ .empty → Diagram t .failing .iterationEnded
  | failingStop {t} : t ≠ .empty → Diagram t .failing .finished
  | repeat_ (t) : Diagram t .iterationEnded .waiting
  | finish (t) : Diagram t .iterationEnded .finished
  | reset (t) : Diagram t .finished .inactive

/-- The states that exist for a type of node. -/
def StateExists : NodeType → NState → Prop
  | .empty, .failing => False
  | .empty, .finishing => False
  | .assignment, .finishing => False
  | .update, .finishing => False
  | _, _ => True

instance (t s) : Decidable (StateExists t s) := by
  cases t <;> cases s <;> unfold StateExists <;> infer_instance

/-- A node history: successive states, each step allowed by the diagram. -/
inductive Path (t : NodeType) : NState → NState → Prop
  | refl (a) : Path t a a
  | snoc {a b c} : Path t a b → Diagram t b c → Path t a c

end Verif.Node
