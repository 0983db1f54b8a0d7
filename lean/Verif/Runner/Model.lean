/-
Model of the program `TestExec`: its command line, and what it does. Source: `/repo/src/apps/TestExec/exec-test-runner.cc:65-457`, built with the viewer (`HAVE_LUV_LISTENER`) and without the debug listener.

Simplifications. What is printed is left out. The number read after `-n` (`buffer >> luvPort`, `225-226`) is a function `num` of the text. What the files contain, whether a library or plan is well formed, and whether the script is run without an
exception, is given by `World`.
-/
set_option autoImplicit false
namespace Verif.Runner

/-- The variables of `run` set by the options, with their initial values. `exec-test-runner.cc:74-79, 89-100`; `LuvListener.hh` (host and port); `Logging.cc` (the log). -/
structure Settings where
  plan : String := "error"
  script : String := "error"
  debugConfig : String := "Debug.cfg"
  resourceFile : String := "resource.data"
  libraries : List String := []
  paths : List String := []
  host : String := "localhost"
  port : Int := 49100
  block : Bool := false
  luv : Bool := false
  debugSupplied : Bool := false
  useDebug : Bool := true
  resourceSupplied : Bool := false
  useResource : Bool := true
  logFile : Option String := none
  errorPrompt : Bool := false
  warnPrompt : Bool := false
deriving DecidableEq, Repr

/-- What reading the options leads to: the program ends with that code, or goes on. `exec-test-runner.cc:104-257`. -/
inductive Parsed where
  | exit (code : Nat)
  | go (s : Settings)
deriving DecidableEq, Repr

/-- The loop over the arguments, `exec-test-runner.cc:115-247`. -/
def options (num : String → Int) : Settings → List String → Parsed
  | s, [] => .go s
  | s, a :: as =>
    if a = "-p" then
      match as with
      | [] => .exit 2
      | x :: as => options num { s with plan := x } as
    else if a = "-s" then
      match as with
      | [] => .exit 2
      | x :: as => options num { s with script := x } as
    else if a = "-l" then
      match as with
      | [] => .exit 2
      | x :: as => options num { s with libraries := s.libraries ++ [x] } as
    else if a = "-L" then
      match as with
      | [] => .exit 2
      | x :: as => options num { s with paths := s.paths ++ [x] } as
    else if a = "-d" then
      if !s.useDebug then .exit 2
      else if s.debugSupplied then .exit 2
      else match as with
        | [] => .exit 2
        | x :: as => options num { s with debugConfig := x, useDebug := true, debugSupplied := true } as
    else if a = "+d" then
      if s.debugSupplied then .exit 2
      else options num { s with debugConfig := "", useDebug := false } as
    else if a = "-r" then
      if !s.useResource then .exit 2
      else if s.resourceSupplied then .exit 2
      else match as with
        | [] => .exit 2
        | x :: as => options num { s with resourceFile := x, useResource := true, resourceSupplied := true } as
    else if a = "+r" then
      if s.resourceSupplied then .exit 2
      else options num { s with resourceFile := "", useResource := false } as
    else if a = "-v" then options num { s with luv := true } as
    else if a = "-b" then options num { s with block := true } as
    else if a = "-h" then
      match as with
      | [] => .exit 2
      | x :: as => options num { s with host := x } as
    else if a = "-n" then
      match as with
      | [] => .exit 2
      | x :: as => options num { s with port := num x } as
    else if a = "-log" then
      match as with
      | [] => .exit 2
      | x :: as => options num { s with logFile := some x } as
    else if a = "-eprompt" then options num { s with errorPrompt := true } as
    else if a = "-wprompt" then options num { s with warnPrompt := true } as
    else .exit 2

/-- Reading the command line (without the name of the program), `exec-test-runner.cc:104-257`. -/
def parse (num : String → Int) (args : List String) : Parsed :=
  if args.length < 4 then (if args.head? = some "-h" then .exit 0 else .exit 2)
  else match options num {} args with
    | .exit c => .exit c
    | .go s => if s.script = "error" then .exit 2 else if s.plan = "error" then .exit 2 else .go s

/-! ## What it does -/

/-- A file that is loaded: not there, not well-formed XML (or not readable), or a document. `loadXmlFile`, `parsePlan.cc:48-67`. -/
inductive File (D : Type) where
  | missing
  | malformed
  | doc (d : D)
deriving DecidableEq, Repr

/-- A library: no file for it, an error in it, or loaded. `exec-test-runner.cc:330-353`, `planLibrary.cc:128-153`. -/
inductive Lib where
  | missing
  | malformed
  | loaded
deriving DecidableEq, Repr

/-- A plan as a document: an error in it; refused by the executive; accepted. `exec-test-runner.cc:378-406`. -/
inductive Plan where
  | wrong
  | refused
  | accepted
deriving DecidableEq, Repr

/-- A script as a document: no `PLEXILScript`; an exception when it is run; run. `exec-test-runner.cc:431-445`. -/
inductive Script where
  | noScript
  | throws
  | runs
deriving DecidableEq, Repr

/-- What is outside. `exec-test-runner.cc:276-445`. -/
structure World where
  debugFile : String → Bool
  viewer : String → Int → Bool → Bool
  library : String → Lib
  plan : String → File Plan
  script : String → File Script

/-- What the program does, in order. `exec-test-runner.cc:259-455`. -/
inductive Event where
  | log (file : String)
  | readDebug (file : String)
  | setPaths (dirs : List String)
  | readResources (file : String)
  | addViewer
  | loadLibrary (file : String)
  | loadPlan (file : String)
  | planParsed
  | addPlan
  | loadScript (file : String)
  | runScript
  | deleteExec
  | finalizers
deriving DecidableEq, Repr

/-- How it ends: an exit code; an exception nobody catches; an undefined pointer is used. -/
inductive End where
  | code (n : Nat)
  | abort
  | undefined
deriving DecidableEq, Repr

/-- The `n`th part of a text, from behind, is searched for: `rfind(".plx") == npos` says that it is nowhere. `exec-test-runner.cc:327`. -/
def hasPlx : List Char → Bool
  | [] => false
  | c :: cs => ['.', 'p', 'l', 'x'].isPrefixOf (c :: cs) || hasPlx cs

/-- The name of the file of a library, `exec-test-runner.cc:326-328`. -/
def fileName (name : String) : String := if hasPlx name.toList then name else name ++ ".plx"

/-- The loop over the libraries, `exec-test-runner.cc:323-354`: what is loaded, and whether all were. -/
def loadAll (w : World) : List String → List Event × Bool
  | [] => ([], true)
  | n :: ns => match w.library (fileName n) with
    | .loaded => let r := loadAll w ns; (.loadLibrary (fileName n) :: r.1, r.2)
    | .missing => ([.loadLibrary (fileName n)], false)
    | .malformed => ([.loadLibrary (fileName n)], false)

/-- The script, `exec-test-runner.cc:410-456`. When the file is not well-formed `scriptDoc` has no value at line 421. -/
def scriptPart (w : World) (s : Settings) : List Event × End :=
  match w.script s.script with
  | .missing => ([.loadScript s.script, .deleteExec], .code 1)
  | .malformed => ([.loadScript s.script], .undefined)
  | .doc .noScript => ([.loadScript s.script, .deleteExec], .code 1)
  | .doc .throws => ([.loadScript s.script, .runScript], .abort)
  | .doc .runs => ([.loadScript s.script, .runScript, .deleteExec], .code 0)

/-- The plan, `exec-test-runner.cc:357-407`. When the file is not well-formed `planDoc` has no value at line 369. -/
def planPart (w : World) (s : Settings) : List Event × End :=
  match w.plan s.plan with
  | .missing => ([.loadPlan s.plan, .deleteExec], .code 1)
  | .malformed => ([.loadPlan s.plan], .undefined)
  | .doc .wrong => ([.loadPlan s.plan, .deleteExec], .code 1)
  | .doc .refused => ([.loadPlan s.plan, .planParsed, .addPlan, .deleteExec], .code 1)
  | .doc .accepted => let r := scriptPart w s; ([.loadPlan s.plan, .planParsed, .addPlan] ++ r.1, r.2)

/-- Before the libraries, `exec-test-runner.cc:259-320`. -/
def setup (w : World) (s : Settings) : List Event :=
  (match s.logFile with | none => [] | some f => [.log f]) ++
  (if s.useDebug && w.debugFile s.debugConfig then [.readDebug s.debugConfig] else []) ++
  [.setPaths s.paths] ++
  (if s.useResource then [.readResources s.resourceFile] else []) ++
  (if s.luv && w.viewer s.host s.port s.block then [.addViewer] else [])

/-- `run` after the command line, `exec-test-runner.cc:259-457`. -/
def body (w : World) (s : Settings) : List Event × End :=
  match loadAll w s.libraries with
  | (es, false) => (setup w s ++ es ++ [.deleteExec], .code 1)
  | (es, true) => let r := planPart w s; (setup w s ++ es ++ r.1, r.2)

/-- `main`, `exec-test-runner.cc:65-70`: the finalizers run if `run` returns. -/
def main (num : String → Int) (w : World) (args : List String) : List Event × End :=
  match parse num args with
  | .exit c => ([.finalizers], .code c)
  | .go s => match body w s with
    | (es, .code n) => (es ++ [.finalizers], .code n)
    | (es, e) => (es, e)

end Verif.Runner
