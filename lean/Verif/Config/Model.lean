import Verif.Route.Model
import Verif.Listen.Model
/-
Model of the interface configuration, from the document to the tables of handlers. Sources: `/repo/src/app-framework/Configuration.cc:37-110`, `/repo/src/app-framework/AdapterFactory.cc:48-90`,
`/repo/src/app-framework/AdapterConfiguration.cc:186-317, 677-739`, `/repo/src/interfaces/IpcAdapter/IpcAdapter.cc:140-192, 1087-1131`, `/repo/src/app-framework/UtilityAdapter.cc`.

Simplifications. Which adapter types exist (after loading of modules) is a function given from outside, as are the success of loading a library, of constructing a listener and of reading the value of an external lookup. What an adapter of another
type registers is any function of its element. `none` is a refused configuration or an exception. The paths are left out.
-/
set_option autoImplicit false
namespace Verif.Config
open Verif.Route (Reg Tables CmdHandler LkHandler)
open Verif.Listen (parseArgs)

/-- A document tree: elements with attributes, and text (pugixml). Used as in `Configuration.cc:44-98`. -/
inductive Xml
  | elem (tag : String) (attrs : List (String × String)) (kids : List Xml)
  | text (s : String)

/-- `xml_node::name()`, used in `Configuration.cc:54`. -/
def Xml.name : Xml → String
  | .elem t _ _ => t
  | .text _ => ""

/-- The children, `xml_node::first_child` and `next_sibling`, `AdapterConfiguration.cc:212, 313`. -/
def Xml.kids : Xml → List Xml
  | .elem _ _ k => k
  | .text _ => []

/-- `xml_node::attribute(name)`: the first of that name. Used in `IpcAdapter.cc:1102`. -/
def Xml.attr? (x : Xml) (a : String) : Option String :=
  match x with
  | .elem _ as _ => (as.find? (fun p => p.1 = a)).map (·.2)
  | .text _ => none

/-- `xml_node::attribute(name).value()`: empty if missing. `Configuration.cc:60`. -/
def Xml.attr (x : Xml) (a : String) : String := (x.attr? a).getD ""

/-- The first text (`child_value`). `Configuration.cc:83`. -/
def firstText : List Xml → String
  | [] => ""
  | .text s :: _ => s
  | .elem _ _ _ :: r => firstText r

/-- `child(tag)` and the `next_sibling(tag)` after it, `Configuration.cc:80-87`. -/
def Xml.named (x : Xml) (tag : String) : List Xml := x.kids.filter (fun k => k.name = tag)

/-- Is there a `child(tag)`? `Configuration.cc:75`. -/
def Xml.has (x : Xml) (tag : String) : Bool := x.kids.any (fun k => k.name = tag)

/-- The loop over the lists of names, `Configuration.cc:80-87, 97-104`. -/
def namesIn (x : Xml) (tag : String) : List String := (x.named tag).flatMap fun n => (parseArgs (firstText n.kids).toList).map String.ofList

/-- `AdapterConf`, `Configuration.hh:42-59`. -/
structure Conf where
  /-- `typeName` -/
  typeName : String
  /-- `commandNames` -/
  commandNames : List String
  /-- `lookupNames` -/
  lookupNames : List String
  /-- `defaultCommandAdapter` -/
  defaultCommand : Bool
  /-- `defaultLookupAdapter` -/
  defaultLookup : Bool
  /-- `plannerUpdateAdapter` -/
  updates : Bool

/-- `parseAdapterConfiguration`, `Configuration.cc:42-113`. -/
def parseAdapter (x : Xml) : Option Conf :=
  if x.name ≠ "Adapter" then none
  else if x.attr "AdapterType" = "" then none
  else
    let dc := x.has "DefaultCommandAdapter" || x.has "DefaultAdapter"
    let dl := x.has "DefaultLookupAdapter" || x.has "DefaultAdapter"
    some { typeName := x.attr "AdapterType"
           defaultCommand := dc
           commandNames := if dc then [] else namesIn x "CommandNames"
           defaultLookup := dl
           lookupNames := if dl then [] else namesIn x "LookupNames"
           updates := x.has "PlannerUpdate" || x.has "DefaultAdapter" }

/-- What an adapter's pieces of code are for. `IpcAdapter.cc:145-184`, `UtilityAdapter.cc:91-98`. -/
inductive Role
  | own (command : String)
  | commands
  | lookups
  | updates
deriving DecidableEq, Repr

/-- Types of adapters: that for IPC, that for printing, others. `AdapterFactory.cc:60-90`. -/
inductive Kind
  | ipc
  | utility
  | other (regs : Xml → Option (List Reg))

/-- What is given from outside. `AdapterFactory.cc:62-87`, `AdapterConfiguration.cc:713-738`, `IpcAdapter.cc:1129`. -/
structure World where
  /-- `factoryMap()` after loading modules. -/
  kind : String → Option Kind
  /-- Can the library be loaded? -/
  library : Xml → Bool
  /-- Can the listener be constructed? -/
  listener : Xml → Bool
  /-- `parseTypedValue` reads type and value without an exception. -/
  typed : String → String → Bool
  /-- The code of the adapter constructed `i`-th. -/
  num : Nat → Role → Nat

/-- The names of the IPC adapter's own commands, `IpcAdapter.cc:85-90`. -/
def ipcCommands : List String := ["SendMessage", "ReceiveMessage", "ReceiveCommand", "GetParameter", "SendReturnValue", "UpdateLookup"]

/-- The names of the printing commands, `UtilityAdapter.cc:91-98`. -/
def printCommands : List String := ["print", "pprint", "printToString", "pprintToString"]

/-- `parseExternalLookup`, `IpcAdapter.cc:1100-1131`: the new list of names. -/
def external1 (typed : String → String → Bool) (names : List String) (l : Xml) : Option (List String) :=
  match l.attr? "name", l.attr? "type", l.attr? "value" with
  | some n, some t, some v => if n ∈ names then some names else if typed t v then some (names ++ [n]) else none
  | _, _, _ => none

/-- The loop of `parseExternalLookups`, `IpcAdapter.cc:1092-1096`. -/
def externalLoop (typed : String → String → Bool) : List String → List Xml → Option (List String)
  | names, [] => some names
  | names, l :: ls => (external1 typed names l).bind fun n => externalLoop typed n ls

/-- `parseExternalLookups(getXml().child("ExternalLookups"))`, `IpcAdapter.cc:168, 1087-1097`. -/
def external (typed : String → String → Bool) (x : Xml) : Option (List String) :=
  match x.named "ExternalLookups" with
  | [] => some []
  | e :: _ => externalLoop typed [] (e.named "Lookup")

/-- `IpcAdapter::initialize`, `IpcAdapter.cc:140-192`. -/
def ipcRegs (typed : String → String → Bool) (num : Role → Nat) (x : Xml) (c : Conf) : Option (List Reg) :=
  (external typed x).map fun ext =>
    ipcCommands.map (fun n => .command (.object (num (.own n))) n) ++
    (if c.defaultCommand then [.cmdDefault (.object (num .commands))]
     else if c.commandNames.isEmpty then [] else [.commands (.object (num .commands)) c.commandNames]) ++
    (if c.defaultLookup then [.lkDefault (.object (num .lookups))]
     else if c.lookupNames.isEmpty && ext.isEmpty then []
     else [.lookups (.object (num .lookups)) c.lookupNames, .lookups (.object (num .lookups)) ext]) ++
    (if c.updates then [.update (some (num .updates))] else [])

/-- `UtilityAdapter::initialize`, `UtilityAdapter.cc:89-100`. The default function for aborts does what a missing one does (`CommandHandler.cc:40-66`). -/
def utilityRegs (num : Role → Nat) : List Reg := printCommands.map fun n => .command (.functions (some (num (.own n))) none) n

/-- An adapter that has been constructed. `AdapterConfiguration.cc:677-690`. -/
structure Adapter where
  /-- Its class. -/
  kind : Kind
  /-- Its element, `getXml()`. -/
  xml : Xml
  /-- `configuration()` -/
  conf : Conf

/-- `AdapterFactory::createInstance`, `AdapterFactory.cc:48-90`. -/
def create (w : World) (x : Xml) : Option Adapter :=
  (parseAdapter x).bind fun c => (w.kind c.typeName).map fun k => ⟨k, x, c⟩

/-- The loop of `constructInterfaces`, `AdapterConfiguration.cc:212-314`: `m_adapters` at its end. -/
def constructLoop (w : World) : List Xml → Option (List Adapter)
  | [] => some []
  | x :: xs =>
    if x.name = "Adapter" then (create w x).bind fun a => (constructLoop w xs).map (a :: ·)
    else if x.name = "InterfaceLibrary" then
      if x.attr "Name" ≠ "" && w.library x then constructLoop w xs else none
    else if x.name = "Listener" then
      if w.listener x then constructLoop w xs else none
    else constructLoop w xs

/-- `constructInterfaces`, `AdapterConfiguration.cc:186-317`. -/
def construct (w : World) (doc : Xml) : Option (List Adapter) :=
  if doc.name = "Interfaces" then constructLoop w doc.kids else none

/-- `initialize` of one adapter, the `i`-th. `AdapterConfiguration.cc:323`. -/
def Adapter.regs (w : World) (i : Nat) (a : Adapter) : Option (List Reg) :=
  match a.kind with
  | .ipc => ipcRegs w.typed (w.num i) a.xml a.conf
  | .utility => some (utilityRegs (w.num i))
  | .other f => f a.xml

/-- `initialize`, `AdapterConfiguration.cc:319-333`: the registrations, in order, of the adapters from the `i`-th on. -/
def initFrom (w : World) : Nat → List Adapter → Option (List Reg)
  | _, [] => some []
  | i, a :: as => (a.regs w i).bind fun r => (initFrom w (i + 1) as).map (r ++ ·)

/-- Both together. `ExecApplication.cc` calls them one after the other. -/
def setup (w : World) (doc : Xml) : Option (List Reg) := (construct w doc).bind (initFrom w 0)

end Verif.Config
