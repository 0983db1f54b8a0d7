import Verif.Ipc.Plans.Model
import Verif.Library.Spec
set_option autoImplicit false
/-! What C153 says. -/
namespace Verif.Ipc.Plans
open Verif.Library (Op)

/-- The plan that a message brings, if it brings one: the message says so, the text is XML and the plan can be read. -/
def planOf (m : World × Kind × List Char) : Option X :=
  if m.2.1 = .addPlan then ((m.1.parse m.2.2).map X.default).filter m.1.plan else none

/-- The document of a message about a library: the text, or what is in the file. -/
def documentOf (m : World × Kind × List Char) : Option X := match m.2.1 with
  | .addLibrary => (m.1.parse m.2.2).map X.default
  | .addLibraryFile => m.1.load m.2.2
  | .addPlanFile => m.1.load m.2.2
  | .addPlan => none

/-- The call of the table of libraries that belongs to a message. -/
def callOf (m : World × Kind × List Char) : Option Op := (documentOf m).map fun x => .add (m.1.name x) (m.1.check x) (m.1.code x)

mutual
/-- No element contains nothing but white space. -/
def X.full : X → Prop
  | .elem _ ks => (∀ s, ks = [.text s] → blank s = false) ∧ fulls ks
  | .text _ => True
/-- The same for all children. -/
def fulls : List X → Prop
  | [] => True
  | x :: r => x.full ∧ fulls r
end

end Verif.Ipc.Plans
