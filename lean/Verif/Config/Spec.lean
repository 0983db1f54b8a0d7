import Verif.Config.Model
import Verif.Route.Spec
import Verif.Listen.Spec
set_option autoImplicit false
/-!
What a configuration says (C150). Nothing here mentions the parsed configuration, the constructed adapters or the tables.
-/
namespace Verif.Config
open Verif.Route (Reg Act CmdHandler LkHandler Latest forCommand forCmdDefault forLookup forLkDefault forUpdate)
open Verif.Listen (Listed Blanks)

/-- There is a child element of that name. -/
def Child (x : Xml) (tag : String) : Prop := ∃ k ∈ x.kids, k.name = tag

/-- One of the lists of this kind has the name. -/
def Lists (x : Xml) (tag name : String) : Prop := ∃ k ∈ x.kids, k.name = tag ∧ ∃ ns, Listed (firstText k.kids).toList ns ∧ name.toList ∈ ns

/-- All lists of this kind are lists of names separated by commas, or empty. -/
def WellListed (x : Xml) (tag : String) : Prop := ∀ k ∈ x.kids, k.name = tag → Blanks (firstText k.kids).toList ∨ ∃ ns, Listed (firstText k.kids).toList ns

/-- An adapter is the default for commands. -/
def DefaultCommands (x : Xml) : Prop := Child x "DefaultCommandAdapter" ∨ Child x "DefaultAdapter"
/-- An adapter is the default for lookups. -/
def DefaultLookups (x : Xml) : Prop := Child x "DefaultLookupAdapter" ∨ Child x "DefaultAdapter"

/-- `e` is the first child of that name. -/
def FirstChild (x : Xml) (tag : String) (e : Xml) : Prop := ∃ pre post, x.kids = pre ++ e :: post ∧ e.name = tag ∧ ∀ k ∈ pre, k.name ≠ tag

/-- A state is declared as an external lookup. -/
def Declares (x : Xml) (state : String) : Prop :=
  ∃ e, FirstChild x "ExternalLookups" e ∧ ∃ l ∈ e.kids, l.name = "Lookup" ∧ l.attr? "name" = some state

/-- The elements of adapters, in order. -/
def elements (doc : Xml) : List Xml := doc.kids.filter (fun k => k.name = "Adapter")

/-- The `i`-th adapter takes commands of this name, with that handler. -/
def TakesCommand (w : World) (i : Nat) (x : Xml) (name : String) (H : CmdHandler) : Prop :=
  match w.kind (x.attr "AdapterType") with
  | some .ipc =>
    (¬ DefaultCommands x ∧ Lists x "CommandNames" name ∧ H = .object (w.num i .commands)) ∨
    (¬ (¬ DefaultCommands x ∧ Lists x "CommandNames" name) ∧ name ∈ ipcCommands ∧ H = .object (w.num i (.own name)))
  | some .utility => name ∈ printCommands ∧ H = .functions (some (w.num i (.own name))) none
  | some (.other f) => ∃ rs, f x = some rs ∧ Latest (forCommand name) (rs.map .reg) H
  | none => False

/-- The `i`-th adapter takes the other commands, with that handler. -/
def TakesOtherCommands (w : World) (i : Nat) (x : Xml) (H : CmdHandler) : Prop :=
  match w.kind (x.attr "AdapterType") with
  | some .ipc => DefaultCommands x ∧ H = .object (w.num i .commands)
  | some .utility => False
  | some (.other f) => ∃ rs, f x = some rs ∧ Latest forCmdDefault (rs.map .reg) H
  | none => False

/-- The `i`-th adapter takes lookups of this name, with that handler. -/
def TakesLookup (w : World) (i : Nat) (x : Xml) (name : String) (H : LkHandler) : Prop :=
  match w.kind (x.attr "AdapterType") with
  | some .ipc => ¬ DefaultLookups x ∧ (Lists x "LookupNames" name ∨ Declares x name) ∧ H = .object (w.num i .lookups)
  | some .utility => False
  | some (.other f) => ∃ rs, f x = some rs ∧ Latest (forLookup name) (rs.map .reg) H
  | none => False

/-- The `i`-th adapter takes the other lookups, with that handler. -/
def TakesOtherLookups (w : World) (i : Nat) (x : Xml) (H : LkHandler) : Prop :=
  match w.kind (x.attr "AdapterType") with
  | some .ipc => DefaultLookups x ∧ H = .object (w.num i .lookups)
  | some .utility => False
  | some (.other f) => ∃ rs, f x = some rs ∧ Latest forLkDefault (rs.map .reg) H
  | none => False

/-- The `i`-th adapter takes the updates, with that code. -/
def TakesUpdates (w : World) (i : Nat) (x : Xml) (u : Option Nat) : Prop :=
  match w.kind (x.attr "AdapterType") with
  | some .ipc => (Child x "PlannerUpdate" ∨ Child x "DefaultAdapter") ∧ u = some (w.num i .updates)
  | some .utility => False
  | some (.other f) => ∃ rs, f x = some rs ∧ Latest forUpdate (rs.map .reg) u
  | none => False

/-- `T` holds for the `i`-th element with `H`, and for no later one. -/
def LastOf {X : Type} (T : Nat → Xml → X → Prop) (es : List Xml) (H : X) : Prop :=
  ∃ i x, es[i]? = some x ∧ T i x H ∧ ∀ j y, i < j → es[j]? = some y → ∀ K, ¬ T j y K

/-- `T` holds for none. -/
def NoneOf {X : Type} (T : Nat → Xml → X → Prop) (es : List Xml) : Prop := ∀ i x, es[i]? = some x → ∀ K, ¬ T i x K

/-- Who gets something: the last that asks for it by name, otherwise the last that takes all others, otherwise `d`. -/
def Goes {X : Type} (byName others : Nat → Xml → X → Prop) (d : X) (es : List Xml) (H : X) : Prop :=
  LastOf byName es H ∨ NoneOf byName es ∧ (LastOf others es H ∨ NoneOf others es ∧ H = d)

/-- The external lookups of an element can be read: each has the three attributes, and the first of each name a value of its type. -/
def ReadableLookups (typed : String → String → Bool) (x : Xml) : Prop :=
  ∀ e, FirstChild x "ExternalLookups" e → ∀ pre l post, e.kids = pre ++ l :: post → l.name = "Lookup" →
    ∃ n t v, l.attr? "name" = some n ∧ l.attr? "type" = some t ∧ l.attr? "value" = some v ∧
      ((∃ m ∈ pre, m.name = "Lookup" ∧ m.attr? "name" = some n) ∨ typed t v = true)

/-- An element of an adapter is accepted. -/
def GoodAdapter (w : World) (x : Xml) : Prop :=
  x.attr "AdapterType" ≠ "" ∧
  match w.kind (x.attr "AdapterType") with
  | some .ipc => ReadableLookups w.typed x
  | some .utility => True
  | some (.other f) => ∃ rs, f x = some rs
  | none => False

/-- A configuration is accepted. -/
def Good (w : World) (doc : Xml) : Prop :=
  doc.name = "Interfaces" ∧ ∀ x ∈ doc.kids,
    (x.name = "Adapter" → GoodAdapter w x) ∧
    (x.name = "InterfaceLibrary" → x.attr "Name" ≠ "" ∧ w.library x = true) ∧
    (x.name = "Listener" → w.listener x = true)

end Verif.Config
