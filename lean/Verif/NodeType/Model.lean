set_option autoImplicit false
/-!
Model of the types of nodes, `/repo/src/exec/PlexilNodeType.cc`, and of the making of nodes, `/repo/src/exec/NodeFactory.cc`. A node is modelled by its class; what constructors do is modelled elsewhere.
-/
namespace Verif.NodeType

/-- Names. -/
abbrev Text := List Char

/-- `PlexilNodeType`, `PlexilNodeType.hh:50-59`. -/
inductive Ty
  | uninitialized | list | command | assignment | update | empty | library | error
deriving DecidableEq, Repr

/-- The order of the enumeration. `PlexilNodeType.hh:50-59`. -/
def Ty.index : Ty → Nat
  | .uninitialized => 0 | .list => 1 | .command => 2 | .assignment => 3 | .update => 4 | .empty => 5 | .library => 6 | .error => 7

/-- The constants, `PlexilNodeType.cc:32-37`. -/
def ASSIGNMENT : Text := "Assignment".toList
@[inherit_doc ASSIGNMENT] def COMMAND : Text := "Command".toList
@[inherit_doc ASSIGNMENT] def EMPTY : Text := "Empty".toList
@[inherit_doc ASSIGNMENT] def LIBRARYNODECALL : Text := "LibraryNodeCall".toList
@[inherit_doc ASSIGNMENT] def LIST : Text := "NodeList".toList
@[inherit_doc ASSIGNMENT] def UPDATE : Text := "Update".toList

/-- `NODE_TYPE_NAME`, `PlexilNodeType.cc:40-52`. -/
def names : List Text := [[], LIST, COMMAND, ASSIGNMENT, UPDATE, EMPTY, LIBRARYNODECALL]

/-- `parseNodeType`, `PlexilNodeType.cc:54-92`: by the first character. -/
def parse (s : Text) : Ty := match s.head? with
  | some c =>
    if c = 'A' then (if s = ASSIGNMENT then .assignment else .error)
    else if c = 'C' then (if s = COMMAND then .command else .error)
    else if c = 'E' then (if s = EMPTY then .empty else .error)
    else if c = 'L' then (if s = LIBRARYNODECALL then .library else .error)
    else if c = 'N' then (if s = LIST then .list else .error)
    else if c = 'U' then (if s = UPDATE then .update else .error)
    else .error
  | none => .error

/-- `nodeTypeString`, `PlexilNodeType.cc:94-99`: `none` is a failed assertion. -/
def nodeTypeString (t : Ty) : Option Text := if 0 < t.index ∧ t.index < Ty.error.index then names[t.index]? else none

/-- The classes of nodes. `NodeFactory.cc:104-110`. -/
inductive Cls | ListNode | CommandNode | AssignmentNode | UpdateNode | NodeImpl | LibraryCallNode
deriving DecidableEq, Repr

/-- `getType` of each class: `ListNode.hh:63`, `CommandNode.hh:63`, `AssignmentNode.hh:65`, `UpdateNode.hh:63`, `NodeImpl.hh:203`, `LibraryCallNode.hh:68`. -/
def Cls.getType : Cls → Ty
  | .ListNode => .list
  | .CommandNode => .command
  | .AssignmentNode => .assignment
  | .UpdateNode => .update
  | .NodeImpl => .empty
  | .LibraryCallNode => .library

/-- What is in a place of the array: nothing, a factory, a factory that has been deleted. `NodeFactory.cc:88, 91-97`. -/
inductive Slot
  | null
  | live (c : Cls)
  | freed
deriving DecidableEq, Repr

/-- The array and `s_inited`. `NodeFactory.cc:88, 124`. -/
structure St where
  slots : Ty → Slot := fun _ => .null
  inited : Bool := false

/-- Storing into the array. -/
def put (f : Ty → Slot) (t : Ty) (s : Slot) : Ty → Slot := fun u => if u = t then s else f u

/-- `initializeNodeFactories`, `NodeFactory.cc:100-112`. -/
def St.initialize (s : St) : St :=
  let f := put s.slots .uninitialized .null
  let f := put f .list (.live .ListNode)
  let f := put f .command (.live .CommandNode)
  let f := put f .assignment (.live .AssignmentNode)
  let f := put f .update (.live .UpdateNode)
  let f := put f .empty (.live .NodeImpl)
  let f := put f .library (.live .LibraryCallNode)
  { slots := f, inited := true }

/-- `purgeNodeFactories`, `NodeFactory.cc:91-97`: places are not cleared, nor is `s_inited`. -/
def St.purge (s : St) : St := { s with slots := fun t => match s.slots t with | .live _ => .freed | x => x }

/-- What `createNode` comes to: a node, a failed assertion, the use of a deleted factory. -/
inductive Made
  | node (c : Cls)
  | assertion
  | useAfterFree
deriving DecidableEq, Repr

/-- `createNode`, `NodeFactory.cc:136-144`, with `getNodeFactory`, `NodeFactory.cc:117-132`. -/
def St.create (s : St) (t : Ty) : St × Made :=
  if 0 < t.index ∧ t.index < Ty.error.index then
    let s := if s.inited then s else s.initialize
    (s, match s.slots t with
      | .null => .assertion
      | .live c => .node c
      | .freed => .useAfterFree)
  else (s, .assertion)

/-- `createNode` of a name, as the parser makes nodes: `checkNodeTypeAttr`, `parseNode.cc:89-104, 918`. `none`: the plan is refused. -/
def St.createNamed (s : St) (n : Text) : Option (St × Made) := if (parse n).index < Ty.error.index then some (s.create (parse n)) else none

/-- Nodes made one after the other. -/
def St.after (s : St) (ts : List Ty) : St := ts.foldl (fun s t => (s.create t).1) s

end Verif.NodeType
