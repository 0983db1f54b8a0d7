import Verif.Text.Model
/-
Model of reading a script of the stand-alone simulator.
Sources: `/repo/src/apps/StandAloneSimulator/LineInStream.cc:62-115`, `SimulatorScriptReader.cc:101-302`, `ResponseFactory.cc:36-144`, `PlexilSimResponseFactory.cc:45-113`, `PlexilSimulator.cc:130-142`.

Simplifications. A file is the lines that end with a newline, and the text after the last one (`ofText`). What `operator>>` makes of the numbers after the first word (delays, indices, counts), and what `parseReturnValue` makes of the line with the value
(`ResponseFactory.cc:90-144`; if it cannot be parsed the variable stays uninitialized, and that value is used) are functions `tel`, `cmd`, `val`. Commands mentioned without a response that can be read are left out of the effects. Line numbers, used in messages
only, are left out. The file can be opened.
-/
set_option autoImplicit false
namespace Verif.SimScript
open Verif.Text (VT parseType)

/-- A line, without its newline. `LineInStream.cc:72`. -/
abbrev Line := List Char

/-- The file being read: the lines ended by a newline still to be read, the text after the last newline, and whether the end of the file was met. `LineInStream.hh`. -/
structure File where
  lines : List Line
  last : Line
  eof : Bool
deriving DecidableEq, Repr

/-- The text of a file cut at its newlines, as `std::getline` does. `LineInStream.cc:72`. -/
def ofText : List Char → File
  | [] => ⟨[], [], false⟩
  | c :: cs =>
    let f := ofText cs
    if c = '\n' then ⟨[] :: f.lines, f.last, false⟩
    else match f.lines with
      | [] => ⟨[], c :: f.last, false⟩
      | l :: ls => ⟨(c :: l) :: ls, f.last, false⟩

/-- `isalnum`, in the C locale. `LineInStream.cc:77`. -/
def alnum (c : Char) : Bool := c.isAlphanum

/-- The blanks of `find_first_not_of`, `LineInStream.cc:74`. -/
def blank (c : Char) : Bool := decide (c = ' ') || decide (c = '\t') || decide (c = '\n') || decide (c = '\r')

/-- `ignoreLine`, `LineInStream.cc:74-77`: empty, blank, or beginning with something that is neither letter nor digit. -/
def ignored (l : Line) : Bool :=
  match l.dropWhile blank with
  | [] => true
  | c :: _ => !alnum c

/-- The loop of `getLine`, `LineInStream.cc:70-82`, before the end of the file: what is the line then, and the file. At the end of the file the line is not looked at. -/
def nextLine (last : Line) : List Line → Line × File
  | [] => (last, ⟨[], [], true⟩)
  | l :: ls => if ignored l then nextLine last ls else (l, ⟨ls, last, false⟩)

/-- `getLine`, `LineInStream.cc:62-90`. -/
def getLine (f : File) : Line × File := if f.eof then ([], f) else nextLine f.last f.lines

/-- White space of `operator>>`. `SimulatorScriptReader.cc:123`. -/
def space (c : Char) : Bool := blank c || decide (c = Char.ofNat 11) || decide (c = Char.ofNat 12)

/-- The words of a line: `linestream >> word`, again and again. `SimulatorScriptReader.cc:123, 234, 252, 273`. The first argument is the word being read. -/
def wordsFrom (w : List Char) : Line → List String
  | [] => if w = [] then [] else [String.ofList w.reverse]
  | c :: cs => if space c then (if w = [] then wordsFrom [] cs else String.ofList w.reverse :: wordsFrom [] cs) else wordsFrom (c :: w) cs

/-- The words of a line. `SimulatorScriptReader.cc:123`. -/
def words (l : Line) : List String := wordsFrom [] l

/-- What the script makes happen: a message without a command, or a response to a command with that index (0 for all), so many times. `PlexilSimResponseFactory.cc:68, 110-111`. -/
inductive Effect (τ β : Type) where
  | tel (name : String) (delay : τ) (value : β)
  | cmd (name : String) (index count : Nat) (delay : τ) (value : β)
deriving DecidableEq, Repr

/-- The functions reading numbers and values, see above. `ResponseFactory.cc:36-144`. -/
structure Reader (τ β : Type) where
  tel : List String → Option τ
  cmd : List String → Option (Nat × Nat × τ)
  val : VT → Line → β

variable {τ β : Type} (R : Reader τ β)

/-- `parseTelemetryReturn`, `PlexilSimResponseFactory.cc:45-71`; `rest` is what follows the first word. `none` is false. -/
def telemetryReturn (f : File) (name : String) (rest : List String) (ty : VT) : Option (Effect τ β) × File :=
  match R.tel rest with
  | none => (none, f)
  | some t => let r := getLine f; (some (.tel name t (R.val ty r.1)), r.2)

/-- `parseCommandReturn`, `PlexilSimResponseFactory.cc:73-113`. -/
def commandReturn (f : File) (name : String) (rest : List String) (ty : VT) : Option (Effect τ β) × File :=
  match R.cmd rest with
  | none => (none, f)
  | some (i, n, t) =>
    let r := getLine f
    if r.2.eof then (none, r.2) else (some (.cmd name i n t (R.val ty r.1)), r.2)

/-- A name declared: as a lookup or as a command, of that type. `SimulatorScriptReader.cc:60-71`. -/
structure Sym where
  lookup : Bool
  type : VT
deriving DecidableEq, Repr

/-- The symbol table, `SimulatorScriptReader.cc:81`. -/
abbrev Table := List (String × Sym)

/-- `find`. `SimulatorScriptReader.cc:164, 184, 203`. -/
def Table.get (t : Table) (n : String) : Option Sym := (t.find? fun p => decide (p.1 = n)).map (·.2)

/-- `parseCommandDeclaration`, `SimulatorScriptReader.cc:269-285`; without a further word the name is empty. -/
def commandDecl (rest : List String) (ty : VT) : String × Sym := (rest.headD "", ⟨false, ty⟩)

/-- `parseDeclaration`, `SimulatorScriptReader.cc:231-264`. Without a name, the word read before stays. -/
def declaration (rest : List String) (ty : VT) : Option (String × Sym) :=
  match rest with
  | [] => none
  | w :: rest => if w = "Command" then some (commandDecl rest ty) else if w ≠ "Lookup" then none else some (rest.headD w, ⟨true, ty⟩)

/-- What is kept from line to line: the two flags, the table, and what was scheduled. `SimulatorScriptReader.cc:101-112`. -/
structure St (τ β : Type) where
  telemetry : Bool
  compat : Bool
  table : Table
  effects : List (Effect τ β)

/-- What a turn of the loop leads to: the next turn, the end of the loop, or giving up. `SimulatorScriptReader.cc:120-221`. -/
inductive Turn (τ β : Type) where
  | next (s : St τ β) (f : File)
  | done (s : St τ β)
  | fail (s : St τ β)

/-- Whether an entry could be read. `SimulatorScriptReader.cc:147-152, 199-201, 207-212`. -/
def entry (s : St τ β) (r : Option (Effect τ β) × File) : Turn τ β :=
  match r.1 with
  | none => .done s
  | some e => .next { s with effects := s.effects ++ [e] } r.2

/-- A name is declared. `SimulatorScriptReader.cc:156-172, 176-192`. -/
def declare (s : St τ β) (f : File) (d : Option (String × Sym)) : Turn τ β :=
  match d with
  | none => .fail s
  | some (n, y) => if (s.table.get n).isSome then .fail s else .next { s with table := (n, y) :: s.table } f

/-- The body of the loop, after the words of the line have been read. `SimulatorScriptReader.cc:122-220`. -/
def turn (s : St τ β) (f : File) (ws : List String) : Turn τ β :=
  match ws with
  | [] => .done s
  | w :: rest =>
    if w = "BEGIN_TELEMETRY" then .next { s with telemetry := true, compat := true } f
    else if w = "BEGIN_COMMANDS" then .next { s with telemetry := false, compat := true } f
    else if s.compat then
      if s.telemetry then entry s (telemetryReturn R f w rest .real) else entry s (commandReturn R f w rest .real)
    else if parseType w ≠ .unknown then declare s f (declaration rest (parseType w))
    else if w = "Command" then declare s f (some (commandDecl rest .unknown))
    else if s.table = [] ∧ s.telemetry = false ∧ s.compat = false then entry { s with compat := true } (commandReturn R f w rest .real)
    else match s.table.get w with
      | some y => if y.lookup then entry s (telemetryReturn R f w rest y.type) else entry s (commandReturn R f w rest y.type)
      | none => .fail s

/-- The loop, `SimulatorScriptReader.cc:120-221`, with the number of turns there can be: what was scheduled, and whether the script was accepted. -/
def loop : Nat → St τ β → File → List (Effect τ β) × Bool
  | 0, s, _ => (s.effects, true)
  | n + 1, s, f =>
    if f.eof then (s.effects, true)
    else
      let r := getLine f
      match turn R s r.2 (words r.1) with
      | .next s f => loop n s f
      | .done s => (s.effects, true)
      | .fail s => (s.effects, false)

/-- `readScript`, `SimulatorScriptReader.cc:101-226`. A turn takes at least a line, or the end of the file. -/
def readScript (telemetry : Bool) (f : File) : List (Effect τ β) × Bool := loop R (f.lines.length + 2) ⟨telemetry, telemetry, [], []⟩ f

/-- What the simulator runs with: the result of `readScript` is not looked at. `PlexilSimulator.cc:135, 140`. -/
def simulator (telemetry : Bool) (f : File) : List (Effect τ β) := (readScript R telemetry f).1

end Verif.SimScript
