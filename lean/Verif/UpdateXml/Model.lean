import Verif.Decl.Model
import Verif.Command.Model
/-
Model of the `Update` element of a plan, from the document to what the IPC adapter sends. Sources: `/repo/src/xml-parser/updateXmlParser.cc`, `/repo/src/interfaces/IpcAdapter/IpcAdapter.cc:770-788`. The `UpdateImpl` is that of
`Verif.Command` (`USt`).

Simplifications. Checking and creating an expression (`checkExpression`, `createExpression`) are functions given from outside; exceptions of the latter are left out, as is the reservation of memory (`constructUpdate`). The map of the pairs is sorted by name in the code and
in order of insertion in the model; only what it contains is used.
-/
set_option autoImplicit false
namespace Verif.UpdateXml
open Verif.Decl (Xml fromTag)
open Verif.Command (Ex USt)

/-- The first loop of `checkUpdateBody`, for one `Pair`. `updateXmlParser.cc:44-57`. A missing node has the empty name. -/
def checkPair (expr : Xml → Bool) (pr : Xml) : Bool :=
  decide (pr.name = "Pair") &&
  (match pr.kids with
   | [] => false
   | n :: rest =>
     decide (n.name = "Name") && decide (n.childValue ≠ "") &&
     (match rest with
      | [] => false
      | e :: _ => expr e))

/-- The second loop, `updateXmlParser.cc:60-72`: each `Pair` is compared with those after it. -/
def noDuplicates : List Xml → Bool
  | [] => true
  | pr :: rest => rest.all (fun q => decide (pr.childValueOf "Name" ≠ q.childValueOf "Name")) && noDuplicates rest

/-- `checkUpdateBody`, `updateXmlParser.cc:41-73`: whether no exception is thrown. -/
def checkUpdate (expr : Xml → Bool) (upd : Xml) : Bool := decide (upd.name = "Update") && upd.kids.all (checkPair expr) && noDuplicates upd.kids

section
variable {Env V : Type}

/-- One turn of the loop of `finalizeUpdate`, `updateXmlParser.cc:89-96`. -/
def pairOf (create : Xml → Ex Env V) (pr : Xml) : String × Ex Env V :=
  match pr.kids with
  | n :: e :: _ => (n.childValue, create e)
  | n :: [] => (n.childValue, create (.text ""))
  | [] => ("", create (.text ""))

/-- `finalizeUpdate`, `updateXmlParser.cc:86-98`: the calls of `addPair`, in order, from the last `Pair` to the first. -/
def added (create : Xml → Ex Env V) (upd : Xml) : List (String × Ex Env V) := upd.kids.reverse.map (pairOf create)

/-- `IpcAdapter::sendPlannerUpdate`, `IpcAdapter.cc:770-788`: what is published, and the acknowledgement put into the queue; `none`: an exception. `ok`: IPC accepts the packets. -/
def sendUpdate (ok : Bool) (node : String) (s : USt V) : Option (List (String × List (String × V)) × List Bool) :=
  if s.pairs.isEmpty then some ([], [])
  else if ok then some ([(node, s.pairs)], [true])
  else none
end

end Verif.UpdateXml
