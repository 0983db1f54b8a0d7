import Verif.Timepoint.Model
/-!
What C75 is stated with: the history of a node as a list of transitions, and when a transition is the one a timepoint names.
-/
namespace Verif.Timepoint

/-- A transition of a node, with its time. -/
structure Tr (T : Type) where
  source : St
  target : St
  time : T

/-- The transitions of a node that starts in `s` and is told to go to these states (a call that does not change the state is no transition). -/
def transitions {T : Type} (s : St) : List (St × T) → List (Tr T)
  | [] => []
  | (s', t) :: cs => if s' = s then transitions s cs else ⟨s, s', t⟩ :: transitions s' cs

/-- The transition begins (or ends) the state. -/
def Tr.isAt {T : Type} (x : Tr T) (st : St) (isEnd : Bool) : Prop := if isEnd then x.source = st else x.target = st

/-- `t` is the time of the last beginning (or end) of the state in the history, and the node was not reset (has not gone to INACTIVE) after it. -/
def Last {T : Type} (h : List (Tr T)) (st : St) (isEnd : Bool) (t : T) : Prop :=
  ∃ h1 x h2, h = h1 ++ x :: h2 ∧ x.isAt st isEnd ∧ x.time = t ∧ ∀ y ∈ h2, ¬ y.isAt st isEnd ∧ y.target ≠ .inactive

end Verif.Timepoint
