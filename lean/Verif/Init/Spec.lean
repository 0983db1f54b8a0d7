import Verif.Init.Model
set_option autoImplicit false
/-!
Specification for C156: what initial value a declaration means.
-/
namespace Verif.Init
variable {α : Type}

/-- The value a variable has once its node has started, if it starts in state `s`: a variable that is in use keeps its value; another one has the value of its literal, or of the variable it is initialized from, or
none. -/
inductive Means (init : Nat → Initializer α) (s : St α) : Nat → Option α → Prop
  | inUse (x : Nat) : 0 < s.count x → Means init s x (s.val x)
  | absent (x : Nat) : s.count x = 0 → init x = .absent → Means init s x none
  | lit (x : Nat) (v : Option α) : s.count x = 0 → init x = .lit v → Means init s x v
  | var (x y : Nat) (v : Option α) : s.count x = 0 → init x = .var y → Means init s y v → Means init s x v

/-- No variable is initialized from itself, directly or through others: `rank` counts the steps. -/
def Acyclic (init : Nat → Initializer α) (rank : Nat → Nat) : Prop := ∀ x y, init x = .var y → rank y < rank x

/-- `vars` are all the variables, with no repetition; initializers name variables. -/
def Vars (init : Nat → Initializer α) (vars : List Nat) : Prop := vars.Nodup ∧ ∀ x ∈ vars, ∀ y, init x = .var y → y ∈ vars

/-- Variables in use whose initializer is `x`. -/
def users (init : Nat → Initializer α) (vars : List Nat) (s : St α) (x : Nat) : Nat :=
  vars.countP fun z => (match init z with | .var y => y == x | _ => false) && decide (0 < s.count z)

/-- The counts are right: each variable is counted once for each hold of others (`holds`) and each variable in use that is initialized from it. -/
def Balanced (init : Nat → Initializer α) (vars : List Nat) (holds : Nat → Int) (s : St α) : Prop :=
  ∀ x ∈ vars, (s.count x : Int) = holds x + users init vars s x

/-- Nodes start and end and values change, in any order and interleaving; `holds` counts the nodes that use a variable. -/
inductive History (init : Nat → Initializer α) (vars : List Nat) (k : Nat) : (Nat → Int) → St α → Prop
  | start (v : Nat → Option α) : History init vars k (fun _ => 0) ⟨fun _ => 0, v⟩
  | activate {h s s'} (x : Nat) : x ∈ vars → History init vars k h s → activate init k s x = some s' → History init vars k (fun z => if z = x then h z + 1 else h z) s'
  | deactivate {h s s'} (x : Nat) : x ∈ vars → History init vars k h s → 0 < h x → deactivate init k s x = some s' → History init vars k (fun z => if z = x then h z - 1 else h z) s'
  | change {h s} (v : Nat → Option α) : History init vars k h s → History init vars k h ⟨s.count, v⟩

end Verif.Init
