import Verif.Life.Model
set_option autoImplicit false
/-!
What is demanded of the calls a component gets. Nothing here mentions how the application works.
-/
namespace Verif.Life

/-- Component `c` answered `true` to call `p` and was not stopped since. -/
def Since (cs : List Call) (c : Nat) (p : Phase) : Prop :=
  ∃ a b, cs = a ++ ⟨c, p, true⟩ :: b ∧ ∀ x ∈ b, ¬ (x.comp = c ∧ x.phase = .stop)

/-- The component is initialized. -/
abbrev Initialized (cs : List Call) (c : Nat) : Prop := Since cs c .init

/-- The component is running. -/
abbrev Running (cs : List Call) (c : Nat) : Prop := Since cs c .start

/-- Every call in the log meets the demand `G`, which may refer to the calls before it. -/
def Always (G : List Call → Call → Prop) (cs : List Call) : Prop :=
  ∀ (pre : List Call) (x : Call) (post : List Call), cs = pre ++ x :: post → G pre x

/-- The components the application has. -/
abbrev St.comps (s : St) : List Nat := s.adapters ++ s.listeners

/-- No call of this kind ever failed. -/
def NoFailure (p : Phase) (cs : List Call) : Prop := ∀ x ∈ cs, x.phase = p → x.ok = true

/-- The program adds components only while the application is not initialized. -/
def AddsEarly (s : St) (a : Act) : Prop := (a = .addAdapter ∨ a = .addListener) → s.initialized = false

/-- The program adds no components while the interfaces are started. -/
def AddsStopped (s : St) (a : Act) : Prop := (a = .addAdapter ∨ a = .addListener) → s.started = false

/-- The calls `p` to the components `l`, in order, all answered `true`. -/
def allOk (p : Phase) (l : List Nat) : List Call := l.map (fun c => ⟨c, p, true⟩)

end Verif.Life
