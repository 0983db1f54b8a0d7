import Verif.Listen.Model
set_option autoImplicit false
/-!
Vocabulary for C89, C90.
-/
namespace Verif.Listen
open Verif.Text (NState)

section
variable {N A P : Type}

/-- Does a report pass a filter? Everything passes no filter. -/
def passes : Option (Filter N A P) → Report N A P → Bool
  | none, _ => true
  | some f, .transition t => f.transition t
  | some f, .assignment a => f.assignment a
  | some f, .plan p => f.plan p

/-- What happens in a call of the hub, as reports. -/
def reportsOf : Ev N A P → List (Report N A P)
  | .transitions ts => ts.map .transition
  | .assignment a => [.assignment a]
  | .plan p => [.plan p]
  | .stepComplete => []
  | .addListener _ => []

/-- What happens in a history, in order. -/
def reports (evs : List (Ev N A P)) : List (Report N A P) := evs.flatMap reportsOf

/-- A report of a transition. -/
def Report.isTransition : Report N A P → Bool
  | .transition _ => true
  | _ => false
/-- A report of an assignment. -/
def Report.isAssignment : Report N A P → Bool
  | .assignment _ => true
  | _ => false
/-- A report of a plan. -/
def Report.isPlan : Report N A P → Bool
  | .plan _ => true
  | _ => false

/-- What an application does with its executive: it lets it step, adds a plan, adds a listener. -/
inductive Act (N A P : Type)
  | cycle (rounds : List (List (Tr N))) (executed retracted : List A)
  | plan (p : P)
  | addListener (f : Option (Filter N A P))

/-- The calls of the hub that belong to it. -/
def Act.calls : Act N A P → List (Ev N A P)
  | .cycle r e x => Verif.Listen.cycle r e x
  | .plan p => [.plan p]
  | .addListener f => [.addListener f]

/-- A listener is added. -/
def Act.adds : Act N A P → Bool
  | .addListener _ => true
  | _ => false

end

/-- A name in a list of names: at least one character, no comma, no blank. -/
def Word (w : List Char) : Prop := w ≠ [] ∧ ∀ c ∈ w, c ≠ ',' ∧ isBlank c = false

/-- Blanks only. -/
def Blanks (b : List Char) : Prop := ∀ c ∈ b, isBlank c = true

/-- A text is a list of these names: separated by commas, with blanks in front of the names and behind the last. -/
inductive Listed : List Char → List (List Char) → Prop
  | last {b w t} : Blanks b → Word w → Blanks t → Listed (b ++ w ++ t) [w]
  | cons {b w r ns} : Blanks b → Word w → Listed r ns → Listed (b ++ w ++ ',' :: r) (w :: ns)

end Verif.Listen
