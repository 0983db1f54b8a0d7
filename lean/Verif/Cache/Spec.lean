import Verif.Cache.Model
import Verif.Keys.Spec
set_option autoImplicit false
/-!
What C85 is stated with: the answers a state has been given, and which of them counts.
-/
namespace Verif.Cache
open Verif.Value Verif.Keys

/-- The answers given for one state, in order. "Unknown" without a type is an answer. -/
def answers (s : State) : List Ev → List Value
  | [] => []
  | .update s' x :: r => if s' = s then x :: answers s r else answers s r
  | .setUnknown s' :: r => if s' = s then .unknown .unknownT :: answers s r else answers s r
  | _ :: r => answers s r

/-- The type of lookup results: dates and durations are Reals. -/
def resultType : VType → VType
  | .date => .real
  | .duration => .real
  | t => t

/-- The type of the first answer that has one. -/
def firstType : List Value → Option VType
  | [] => none
  | x :: r => if x.type = .unknownT then firstType r else some (resultType x.type)

/-- An answer is heard by a state of type `t`: it has that type, or is an Integer for a Real, or an unknown of no particular type. -/
def Heard (t : VType) (x : Value) : Prop := x.type = .unknownT ∨ x.type = t ∨ (x.type = .integer ∧ t = .real)

instance (t : VType) (x : Value) : Decidable (Heard t x) := by unfold Heard; infer_instance

/-- What a value holds. -/
def content : Value → Option Payload
  | .known p => some p
  | .unknown _ => none

/-- The last answer heard; unknown if there is none. -/
def lastHeard (xs : List Value) : Option Payload :=
  match firstType xs with
  | none => none
  | some t => ((xs.filter (fun x => decide (Heard t x))).getLast?).bind content

/-- Two results are the same for a plan: both unknown, or the same value – numbers as numbers, arrays by their known elements (`Keys/Spec.lean`). -/
def Agree : Option Payload → Option Payload → Prop
  | none, none => True
  | some p, some q => SameValue (.known p) (.known q)
  | _, _ => False

/-- Types that are not types of lookup results. -/
def Internal (t : VType) : Prop := t = .stateT ∨ t = .nodeState ∨ t = .outcome ∨ t = .failure ∨ t = .commandHandle

end Verif.Cache
