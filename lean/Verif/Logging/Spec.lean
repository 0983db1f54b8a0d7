import Verif.Logging.Model
set_option autoImplicit false
/-!
Specification for C155: which file is in force, what a call logs, what a dialogue comes to.
-/
namespace Verif.Logging

/-- The log file in force: the last name given since the last finalization, or else the default. -/
def inForce (es : List Ev) : Text :=
  (es.reverse.findSome? fun | .name (some f) => some f | .purge => some defaultName | _ => none).getD defaultName

/-- Is the user asked about a message of this kind? Errors under `-eprompt`, warnings under `-wprompt`. -/
def Asked (w : World) (k : Kind) : Prop := (k = .error ∧ w.eprompt = true) ∨ (k = .warning ∧ w.wprompt = true)

/-- The word for the kind of a message. -/
def word : Kind → Text
  | .error => "ERROR".toList
  | .warning => "WARNING".toList
  | .info => "INFO".toList
  | .other => "UNKNOWN".toList

/-- What a user reads: kind, file, numbers, message. -/
def reading (k : Kind) (m : Msg) : Text :=
  let file (f : Option Text) := (match f with | some f => [':', ' '] ++ f | none => [])
  match m with
  | .plain t => word k ++ file (some t)
  | .offset f o t => word k ++ file f ++ [':'] ++ (toString o).toList ++ file t
  | .at f line column t => word k ++ file f ++ [':'] ++ (toString line).toList ++ [':'] ++ (toString column).toList ++ file t

/-- What a call writes to the log. -/
def logs (w : World) : Ev → Option Text
  | .report k m => if w.logging then some (reading k m) else none
  | .note t => some t
  | _ => none

/-- What a call prints. -/
def prints : Ev → Text
  | .report k m => reading k m ++ ['\n']
  | _ => []

/-- Calls that neither ask the user anything nor give a name with a null character in it. -/
def Quiet (w : World) (es : List Ev) : Prop :=
  (∀ k m, .report k m ∈ es → ¬ Asked w k) ∧ ∀ f, .name (some f) ∈ es → '\x00' ∉ f

/-- What the user types: lines. -/
def typed (ls : List Text) : Text := ls.flatMap (· ++ ['\n'])

/-- What the user decides: the first line that is just `P` or `E`, in either case; `true` is to proceed, and the lines not looked at. Exit if there is none. -/
def decision : List Text → Bool × List Text
  | [] => (false, [])
  | l :: r => if l = ['P'] ∨ l = ['p'] then (true, r) else if l = ['E'] ∨ l = ['e'] then (false, r) else decision r

/-- What appears on the terminal in the meantime. -/
def dialogue (w : World) : List Text → Text
  | [] => question w ++ "aborting...\n".toList
  | l :: r =>
    question w ++
    (if l = ['P'] ∨ l = ['p'] then []
     else if l = ['E'] ∨ l = ['e'] then "aborting...\n".toList
     else (if l = ['S'] ∨ l = ['s'] then ("Execution path:".toList :: w.trace).flatMap (· ++ ['\n']) else []) ++ dialogue w r)

end Verif.Logging
