import Verif.Sim.Model
set_option autoImplicit false
/-!
Vocabulary for C91-C93.
-/
namespace Verif.Sim
variable {V : Type}

/-- The last telemetry value sent under a name. -/
def lastSent (n : String) (sent : List (Int × Int × Msg V)) : Option V :=
  (sent.reverse.find? (fun e => e.2.2.id.isNone && e.2.2.name == n)).map (·.2.2.value)

/-- No response is due in the first second of 1970, at a full second, or in the very microsecond in which the clock is read. -/
def Lucky (s : St V) : Prop := ∀ e ∈ s.asked, e.1 / 1000000 ≠ 0 ∧ e.1 % 1000000 ≠ 0 ∧ e.1 ∉ s.seen

/-- The simulator will be woken up in time for all it has to send. -/
def Armed (s : St V) : Prop := s.agenda = [] ∨ s.pending = true ∨ ∃ t, s.timer = some t ∧ ∀ e ∈ s.agenda, t ≤ e.1

/-- The responses the script gives for a command, with their indices, in order. -/
def entries (name : String) : List (Ev V) → List (Nat × Resp V)
  | [] => []
  | .response n i r :: l => if n = name then (i, r) :: entries name l else entries name l
  | _ :: l => entries name l

/-- How often a command has arrived. -/
def arrivals (name : String) : List (Ev V) → Nat
  | [] => 0
  | .command n _ :: l => if n = name then arrivals name l + 1 else arrivals name l
  | _ :: l => arrivals name l

/-- The response to the k-th command: the first one the script gives for the number k, else the last one it gives for 0. -/
def wanted (k : Nat) (script : List (Nat × Resp V)) : Option (Resp V) :=
  match script.find? (fun e => e.1 == k && e.1 != 0) with
  | some e => some e.2
  | none => (script.reverse.find? (fun e => e.1 == 0)).map (·.2)

/-- No response of the script has a negative delay. -/
def NoneInThePast (evs : List (Ev V)) : Prop := ∀ n i r, Ev.response n i r ∈ evs → 0 ≤ r.delay

/-- A line of a script. -/
def Ev.isLine : Ev V → Bool
  | .telemetry _ _ _ => true
  | .response _ _ _ => true
  | _ => false

/-- The scripts are read before any command can arrive (`PlexilSimulator.cc:127-158`). -/
def ScriptFirst (evs : List (Ev V)) : Prop := evs.Pairwise (fun a b => b.isLine = true → a.isLine = true)

end Verif.Sim
