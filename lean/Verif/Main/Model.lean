/-
Model of the program `universalExec`: its command line, and what it does. Source: `/repo/src/universal-exec/UniversalExec.cc:48-364`, built with the viewer (`HAVE_LUV_LISTENER`).

Simplifications. What is printed is left out. The number read after `-n` (`buffer >> luvPort`, `201-202`) is a function `num` of the text. What the files contain and what the calls of the application return is given by `World`. The file with interface
configuration is represented by the names and kinds of the elements below the first `Interfaces` element.
-/
set_option autoImplicit false
namespace Verif.Main

/-- The variables of `main_internal` set by the options, with their initial values. `UniversalExec.cc:51-56, 67-69, 73-77`; `LuvListener.hh` (host and port). -/
structure Settings where
  plan : String := ""
  debugConfig : String := "Debug.cfg"
  interfaceConfig : String := "interface-config.xml"
  resourceFile : String := "resource.data"
  libraries : List String := []
  paths : List String := []
  host : String := "localhost"
  port : Int := 49100
  block : Bool := false
  luv : Bool := false
  debugSupplied : Bool := false
  useDebug : Bool := true
  resourceSupplied : Bool := false
  useResource : Bool := true
deriving DecidableEq, Repr

/-- What reading the options leads to: the program ends with that code, or goes on. `UniversalExec.cc:80-211`. -/
inductive Parsed where
  | exit (code : Nat)
  | go (s : Settings)
deriving DecidableEq, Repr

/-- The loop over the arguments, `UniversalExec.cc:86-211`. -/
def options (num : String → Int) : Settings → List String → Parsed
  | s, [] => .go s
  | s, a :: as =>
    if a = "-c" then
      match as with
      | [] => .exit 2
      | x :: as => options num { s with interfaceConfig := x } as
    else if a = "-d" then
      if !s.useDebug then .exit 2
      else if s.debugSupplied then .exit 2
      else match as with
        | [] => .exit 2
        | x :: as => options num { s with debugConfig := x, useDebug := true, debugSupplied := true } as
    else if a = "+d" then
      if s.debugSupplied then .exit 2
      else options num { s with debugConfig := "", useDebug := false } as
    else if a = "-l" then
      match as with
      | [] => .exit 2
      | x :: as => options num { s with libraries := s.libraries ++ [x] } as
    else if a = "-L" then
      match as with
      | [] => .exit 2
      | x :: as => options num { s with paths := s.paths ++ [x] } as
    else if a = "-h" then
      if !s.luv then .exit 0
      else match as with
        | [] => .exit 2
        | x :: as => options num { s with host := x } as
    else if a = "-p" then
      match as with
      | [] => .exit 2
      | x :: as => options num { s with plan := x } as
    else if a = "-r" then
      if !s.useResource then .exit 2
      else if s.resourceSupplied then .exit 2
      else match as with
        | [] => .exit 2
        | x :: as => options num { s with resourceFile := x, useResource := true, resourceSupplied := true } as
    else if a = "+r" then
      if s.resourceSupplied then .exit 2
      else options num { s with resourceFile := "", useResource := false } as
    else if a = "-v" then options num { s with luv := true } as
    else if a = "-n" then
      match as with
      | [] => .exit 2
      | x :: as => options num { s with port := num x } as
    else if a = "-b" then options num { s with block := true } as
    else .exit 2

/-- Reading the command line (without the name of the program), `UniversalExec.cc:80-211`. -/
def parse (num : String → Int) (args : List String) : Parsed := if args = [] then .exit 2 else options num {} args

/-! ## What it does -/

/-- An element below `Interfaces`: an adapter or a listener, of that type. `InterfaceSchema.hh`. -/
inductive Item where
  | adapter (type : String)
  | listener (type : String)
deriving DecidableEq, Repr

/-- The document got from a file of interface configuration: it was well-formed; it has elements (pugixml keeps those read before an error); what its first `Interfaces` element holds, if there is one. `UniversalExec.cc:221-246`. -/
structure Doc where
  ok : Bool
  empty : Bool
  interfaces : Option (List Item)
deriving DecidableEq, Repr

/-- What is outside: files, and what the calls of the application return. `UniversalExec.cc:215-345`. -/
structure World where
  debugFile : String → Bool
  config : String → Doc
  init : List Item → Bool
  loadLibrary : String → Bool
  startInterfaces : Bool
  run : Bool
  planOk : String → Bool
  addPlan : String → Bool

/-- What the program does, in order. `UniversalExec.cc:212-364`. -/
inductive Event where
  | readDebug (file : String)
  | readConfig (file : String)
  | attachViewer (host : String) (port : Int) (block : Bool)
  | readResources (file : String)
  | initApp (cfg : List Item)
  | addPath (dirs : List String)
  | loadLibrary (file : String)
  | startInterfaces
  | run
  | waitForShutdown
  | loadPlan (file : String)
  | addPlan (file : String)
  | notifyAndWait
  | waitForPlanFinished
  | stop
  | finalizers
deriving DecidableEq, Repr

/-- `find_child_by_attribute` and `remove_child`: the first viewer listener goes, `UniversalExec.cc:258-265`. -/
def dropViewer : List Item → List Item
  | [] => []
  | .listener t :: l => if t = "LuvListener" then l else .listener t :: dropViewer l
  | i :: l => i :: dropViewer l

/-- The interface configuration used; `none` if there is no `Interfaces` element. `UniversalExec.cc:220-266`. -/
def configOf (w : World) (s : Settings) : Option (List Item) :=
  let d := if s.interfaceConfig = "" then ⟨true, true, none⟩ else w.config s.interfaceConfig
  let c := if d.empty then some [.adapter "Time"] else d.interfaces
  if s.luv then c.map dropViewer else c

/-- The loop over the libraries, `UniversalExec.cc:297-305`: what is done, and whether all were loaded. -/
def loadAll (w : World) : List String → List Event × Bool
  | [] => ([], true)
  | f :: fs => if w.loadLibrary f then let r := loadAll w fs; (.loadLibrary f :: r.1, r.2) else ([.loadLibrary f], false)

/-- The plan, `UniversalExec.cc:325-356`. -/
def planPart (w : World) (s : Settings) : List Event × Nat :=
  if s.plan = "" then ([.waitForShutdown], 0)
  else if !w.planOk s.plan then ([.loadPlan s.plan, .stop], 1)
  else if !w.addPlan s.plan then ([.loadPlan s.plan, .addPlan s.plan, .stop], 1)
  else ([.loadPlan s.plan, .addPlan s.plan, .notifyAndWait, .waitForPlanFinished, .stop], 0)

/-- Everything after the options, `UniversalExec.cc:212-357`. -/
def body (w : World) (s : Settings) : List Event × Nat :=
  let e0 := (if s.useDebug && w.debugFile s.debugConfig then [Event.readDebug s.debugConfig] else [])
    ++ (if s.interfaceConfig = "" then [] else [.readConfig s.interfaceConfig])
  match configOf w s with
  | none => (e0, 1)
  | some cfg =>
    let e1 := e0 ++ (if s.luv then [.attachViewer s.host s.port s.block] else [])
      ++ (if s.useResource then [.readResources s.resourceFile] else []) ++ [.initApp cfg]
    if !w.init cfg then (e1, 1)
    else
      let e2 := e1 ++ (if s.paths = [] then [] else [.addPath s.paths])
      let r := loadAll w s.libraries
      if !r.2 then (e2 ++ r.1, 1)
      else
        let e3 := e2 ++ r.1 ++ [.startInterfaces]
        if !w.startInterfaces then (e3, 1)
        else
          let e4 := e3 ++ [.run]
          if !w.run then (e4, 1)
          else let p := planPart w s; (e4 ++ p.1, p.2)

/-- `main`, `UniversalExec.cc:359-364`. -/
def main (num : String → Int) (w : World) (args : List String) : List Event × Nat :=
  match parse num args with
  | .exit c => ([.finalizers], c)
  | .go s => let r := body w s; (r.1 ++ [.finalizers], r.2)

end Verif.Main
