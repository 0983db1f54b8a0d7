set_option autoImplicit false
/-!
Model of `Logging`, `/repo/src/utils/Logging.cc`: what is printed, what goes into which log file, the buffer of its name, and the dialogue with the user.

Text is a list of characters. The clock, the process number, the stack, the terminal and which files can be opened are parameters. `exit` is a flag. Not modelled: `Error::getStream` is one stream (Error.cc:205-);
`delete` of an array; `ctime_r`; who calls.
-/
namespace Verif.Logging

/-- Texts and names. `Logging.hh:39-45`. -/
abbrev Text := List Char

/-- Kinds of messages; `other`: any other number. `Logging.hh:32-36`. -/
inductive Kind | error | warning | info | other
deriving DecidableEq, Repr

/-- The three forms of `handle_message`; `none` is the null pointer. `Logging.cc:71-98`. -/
inductive Msg
  | plain (msg : Text)
  | offset (file : Option Text) (offset : Int) (msg : Option Text)
  | at (file : Option Text) (line col : Int) (msg : Option Text)
deriving DecidableEq, Repr

/-- What the outside gives: flags (`ENABLE_*`), the terminal, the process number, the time of the n-th line, the stack, the files that can be opened. `Logging.cc:53-55, 230-275`. -/
structure World where
  logging : Bool
  eprompt : Bool
  wprompt : Bool
  tty : Bool
  pid : Text
  date : Nat → Text
  trace : List Text
  writable : Text → Bool

/-- `FILE_NAME` with its contents, `FILE_NAME_LEN`, `sl_newSession`, the files, lines logged so far, the error stream, standard input, has the process exited? `Logging.cc:57-61, 110`. -/
structure St where
  buf : Option Text := none
  cap : Nat := 0
  fresh : Bool := true
  files : Text → Text := fun _ => []
  clock : Nat := 0
  err : Text := []
  stdin : Text := []
  exited : Bool := false

/-- `DEFAULT_LOG_FILE_NAME`, `Logging.cc:57`. -/
def defaultName : Text := "universalexec.log".toList

/-- `strncpy(dst, src, n)` for a destination of `n` characters. -/
def strncpy (src : Text) (n : Nat) : Text := src.take n ++ List.replicate (n - src.length) '\x00'

/-- The string in a buffer: up to the null character. -/
def cstr (b : Text) : Text := b.takeWhile (· != '\x00')

/-- `set_log_file_name` with a name, `Logging.cc:140-156`: a new buffer if there is none or it is too small. -/
def St.setName (s : St) (f : Text) : St :=
  let len := f.length + 1
  let n := if s.buf = none ∨ s.cap < len then len else s.cap
  { s with cap := n, buf := some (strncpy f n) }

/-- `ensure_log_file_name`, `Logging.cc:279-283`. -/
def St.ensure (s : St) : St := if s.buf = none then s.setName defaultName else s

/-- `purge`, `Logging.cc:286-291`. -/
def St.purge (s : St) : St := { s with buf := none }

/-- What introduces a session, `Logging.cc:117-123`. -/
def header (w : World) : Text :=
  List.replicate 80 '=' ++ "\n".toList ++ "Logging Session ID (PID): ".toList ++ w.pid ++ "\n".toList ++ List.replicate 80 '=' ++ "\n".toList

/-- Appending to a file, which fails silently if it cannot be opened. `Logging.cc:112, 125`. -/
def append (w : World) (fs : Text → Text) (f t : Text) : Text → Text := fun g => if g = f ∧ w.writable f then fs g ++ t else fs g

/-- `print_to_log`, `Logging.cc:108-129`. -/
def St.printToLog (w : World) (s : St) (msg : Text) : St :=
  let s := s.ensure
  { s with fresh := false, clock := s.clock + 1,
           files := append w s.files (cstr (s.buf.getD [])) ((if s.fresh then header w else []) ++ w.date s.clock ++ ": ".toList ++ msg ++ "\n".toList) }

/-- `msg_type_name`, `Logging.cc:158-170`. -/
def kindName : Kind → Text
  | .error => "ERROR".toList
  | .warning => "WARNING".toList
  | .info => "INFO".toList
  | .other => "UNKNOWN".toList

/-- `int` in a stream. -/
def dec (i : Int) : Text := (toString i).toList

/-- The text of a message, `Logging.cc:71-98`. -/
def text (k : Kind) : Msg → Text
  | .plain m => kindName k ++ ": ".toList ++ m
  | .offset f o m => kindName k ++ (match f with | some f => ": ".toList ++ f | none => []) ++ ":".toList ++ dec o ++ (match m with | some m => ": ".toList ++ m | none => [])
  | .at f l c m => kindName k ++ (match f with | some f => ": ".toList ++ f | none => []) ++ ":".toList ++ dec l ++ ":".toList ++ dec c ++ (match m with | some m => ": ".toList ++ m | none => [])

/-- Output on the error stream. -/
def St.say (s : St) (t : Text) : St := { s with err := s.err ++ t }

/-- A line of the stack: `Logging.cc:264-272`. -/
def St.stackLine (w : World) (s : St) (m : Text) : St :=
  let s := s.say (m ++ "\n".toList)
  if w.logging then s.printToLog w m else s

/-- `print_stack`, `Logging.cc:255-277`. -/
def St.printStack (w : World) (s : St) : St := w.trace.foldl (St.stackLine w) (s.stackLine w "Execution path:".toList)

/-- `fgets`: at most `n` characters, up to the end of the line; what remains. `Logging.cc:213`. -/
def chunk : Nat → Text → Text × Text
  | 0, t => ([], t)
  | _ + 1, [] => ([], [])
  | n + 1, c :: r => if c = '\n' then ([c], r) else let k := chunk n r; (c :: k.1, k.2)

theorem chunk_shorter (n : Nat) (t : Text) : (chunk n t).2.length ≤ t.length := by
  induction n generalizing t with
  | zero => simp [chunk]
  | succ n ih =>
    cases t with
    | nil => simp [chunk]
    | cons c r =>
      simp only [chunk]
      split
      · simp
      · exact Nat.le_succ_of_le (ih r)

theorem chunk_cons (n : Nat) (c : Char) (r : Text) : (chunk (n + 1) (c :: r)).2.length < (c :: r).length := by
  simp only [chunk]
  split
  · simp
  · exact Nat.lt_succ_of_le (chunk_shorter n r)

/-- Is the buffer this letter and a newline? `Logging.cc:219-225`. -/
def isCmd (b : Text) (u l : Char) : Bool := match b with
  | x :: y :: _ => (x == u || x == l) && y == '\n'
  | _ => false

/-- The question, `Logging.cc:202-206`. -/
def question (w : World) : Text := " (pid:".toList ++ w.pid ++ ")".toList ++ " [E]xit, show [S]tack trace or [P]roceed: ".toList

/-- `exit(0)`, `Logging.cc:219-222`. -/
def St.abort (s : St) : St := { s.say "aborting...\n".toList with exited := true }

/-- `prompt_user` on the rest of the input, `Logging.cc:198-229`; a buffer of 8 characters. -/
def prompt (w : World) (inp : Text) (s : St) : St :=
  let s := s.say (question w)
  if w.tty then
    match inp with
    | [] => { s.abort with stdin := [] }
    | c :: r =>
      let k := chunk (6 + 1) (c :: r)
      if isCmd k.1 'E' 'e' then { s.abort with stdin := k.2 }
      else if isCmd k.1 'P' 'p' then { s with stdin := k.2 }
      else if isCmd k.1 'S' 's' then prompt w k.2 (s.printStack w)
      else prompt w k.2 s
  else s.abort
termination_by inp.length
decreasing_by all_goals exact chunk_cons 6 c r

/-- Does a message of this kind ask the user? `Logging.cc:181-196`. -/
def asks (w : World) : Kind → Bool
  | .error => w.eprompt
  | .warning => w.wprompt
  | _ => false

/-- `handle_message` and `print_message`, `Logging.cc:71-98, 172-196`. -/
def St.handle (w : World) (s : St) (k : Kind) (m : Msg) : St :=
  let s := s.say (text k m ++ "\n".toList)
  let s := if w.logging then s.printToLog w (text k m) else s
  if asks w k then prompt w s.stdin s else s

/-- Calls: `set_log_file_name`, `handle_message`, `print_to_log`, the finalizer. -/
inductive Ev
  | name (f : Option Text)
  | report (k : Kind) (m : Msg)
  | note (t : Text)
  | purge
deriving DecidableEq, Repr

/-- One call, unless the process has exited. `Logging.cc:71-156, 286-291`. -/
def step (w : World) (s : St) (e : Ev) : St := if s.exited then s else match e with
  | .name (some f) => s.setName f
  | .name none => s.ensure
  | .report k m => s.handle w k m
  | .note t => s.printToLog w t
  | .purge => s.purge

/-- Calls in order. -/
def run (w : World) (s : St) (es : List Ev) : St := es.foldl (step w) s

end Verif.Logging
