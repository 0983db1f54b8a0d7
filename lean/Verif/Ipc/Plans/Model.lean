import Verif.Library.Model
set_option autoImplicit false
/-!
Model of plans and libraries that come as IPC messages: `/repo/src/interfaces/IpcAdapter/IpcAdapter.cc:253-280, 795-849`, `/repo/src/app-framework/InterfaceManager.cc:345-386`, `loadXmlFile` of
`/repo/src/xml-parser/parsePlan.cc`, and the table of libraries of `Verif.Library`.

Simplified: well-formedness of XML, the files there are, `parsePlan`, `checkPlan` and the name of the root node are parameters; pugixml is modelled by what its documentation says of white space, for
documents without comments, CDATA sections and processing instructions; only documents that are handed to the table of libraries have addresses. Not modelled: the executive reads the table of libraries in
another thread than the one that handles messages.
-/
namespace Verif.Ipc.Plans
open Verif.Library (Lib)

/-- An XML tree: elements and character data. `pugi::xml_node`, `IpcAdapter.cc:830-831`. -/
inductive X
  | elem (tag : List Char) (kids : List X)
  | text (s : List Char)

/-- White space in the sense of XML. `parse_ws_pcdata_single`, `parsePlan.cc:45`. -/
def blank (s : List Char) : Bool := s.all fun c => c = ' ' || c = '\t' || c = '\n' || c = '\r'

mutual
/-- `load_string(text)` with the default options: character data that is only white space is dropped. `IpcAdapter.cc:831`. -/
def X.default : X → X
  | .elem t ks => .elem t (defaults ks)
  | .text s => .text s
/-- The children, `IpcAdapter.cc:831`. -/
def defaults : List X → List X
  | [] => []
  | .text s :: r => if blank s then defaults r else .text s :: defaults r
  | .elem t ks :: r => .elem t (defaults ks) :: defaults r
end

mutual
/-- `load_file(filename, PUGI_PARSE_OPTIONS)` with `parse_ws_pcdata_single`: such data is kept if it is all there is in the element. `parsePlan.cc:45, 52`. -/
def X.single : X → X
  | .elem t ks => .elem t (if allText ks then ks else singles ks)
  | .text s => .text s
/-- The children, `parsePlan.cc:45, 52`. -/
def singles : List X → List X
  | [] => []
  | .text s :: r => if blank s then singles r else .text s :: singles r
  | .elem t ks :: r => .elem t (if allText ks then ks else singles ks) :: singles r
/-- Is there one child, and is it text? `parsePlan.cc:45`. -/
def allText : List X → Bool
  | [.text _] => true
  | _ => false
end

/-- Everything the code asks others: is this text XML (and which), which files there are with which contents, `parsePlan`, `checkPlan`, the name of the root node, a number for the contents.
`IpcAdapter.cc:803, 831`, `InterfaceManager.cc:350`, `planLibrary.cc:154, 165`. -/
structure World where
  parse : List Char → Option X
  file : List Char → Option (List Char)
  plan : X → Bool
  check : X → Bool
  name : X → List Char
  code : X → Nat

/-- `PlexilMsgType`, `ipc-data-formats.h:303-306`. -/
inductive Kind | addPlan | addPlanFile | addLibrary | addLibraryFile
deriving DecidableEq, Repr

/-- What the messages change: the table of libraries; the plans put into the input queue; calls of `notifyExec`; what the listeners are told (plans, libraries); messages on `cerr` or warnings.
`InterfaceManager.cc:345-418`. -/
structure St where
  lib : Lib := {}
  plans : List X := []
  notified : Nat := 0
  toldPlans : List X := []
  toldLibraries : List X := []
  errors : Nat := 0

/-- `handleAddLibrary`, `InterfaceManager.cc:366-386`, with `loadLibraryDocument`, `planLibrary.cc:150-199`. -/
def St.addLibrary (w : World) (s : St) (x : X) : St :=
  match s.lib.step (.add (w.name x) (w.check x) (w.code x)) with
  | (l, .lib _) => { s with lib := l, toldLibraries := s.toldLibraries ++ [x] }
  | (l, _) => { s with lib := l, errors := s.errors + 1 }

/-- `handleAddPlan` and, if there is no exception, `notifyOfExternalEvent`: `InterfaceManager.cc:345-361`, `IpcAdapter.cc:837-843`. -/
def St.addPlan (w : World) (s : St) (x : X) : St :=
  if w.plan x then { s with plans := s.plans ++ [x], toldPlans := s.toldPlans ++ [x], notified := s.notified + 1 }
  else { s with errors := s.errors + 1 }

/-- `loadXmlFile`, `parsePlan.cc:48-65`; a file that is missing and one that is no XML are both reported (`IpcAdapter.cc:802-812`). -/
def World.load (w : World) (path : List Char) : Option X := ((w.file path).bind w.parse).map X.single

/-- `handlePlanFileMessage`, `IpcAdapter.cc:797-822`. The type of the message is compared with `PlexilMsgType_AddPlan` (813). -/
def St.planFile (w : World) (s : St) (k : Kind) (path : List Char) : St :=
  match w.load path with
  | none => { s with errors := s.errors + 1 }
  | some x => if k = .addPlan then s.addPlan w x else s.addLibrary w x

/-- `handlePlanTextMessage`, `IpcAdapter.cc:826-849`. -/
def St.planText (w : World) (s : St) (k : Kind) (t : List Char) : St :=
  match (w.parse t).map X.default with
  | none => { s with errors := s.errors + 1 }
  | some x => if k = .addPlan then s.addPlan w x else s.addLibrary w x

/-- `receiveMessages`, `IpcAdapter.cc:262-280`. -/
def St.receive (w : World) (s : St) (m : Kind × List Char) : St := match m.1 with
  | .addLibraryFile => s.planFile w m.1 m.2
  | .addPlanFile => s.planFile w m.1 m.2
  | .addLibrary => s.planText w m.1 m.2
  | .addPlan => s.planText w m.1 m.2

/-- A sequence of messages; the files may be others at every message. `IpcAdapter.cc:253-280`. -/
def St.run (s : St) (ms : List (World × Kind × List Char)) : St := ms.foldl (fun s m => s.receive m.1 m.2) s

end Verif.Ipc.Plans
