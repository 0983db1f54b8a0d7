/-!
Model of names in plans: which variable, mutex and node a name in a plan designates, and the expansion of library calls.
Sources: `/repo/src/exec/{NodeImpl,ListNode,LibraryCallNode,NodeVariableMap,Mutex}.cc`,
`/repo/src/xml-parser/{parseNode,parseLibraryCall,parseNodeReference,parsePlan,createExpression,ArrayReferenceFactory,planLibrary}.cc`,
`/repo/src/expr/{Alias,ArrayReference}.cc`.

What a name in a node designates depends on the node and its ancestors only, so a node is modelled by the list of the elements on the path from it to
the root of the plan, nearest first; the path goes through library calls into the called nodes.  The parser finalizes ancestors before descendants
(`parseNode.cc:1261-1315`, `parseLibraryCall.cc:160-185`).

Simplifications.  A map (`SimpleMap`, a sorted vector) is an association list.  Types are numbers.  A node has at most one `In` and one `InOut` element.  The default
value of an `In` variable is taken to have the declared type.  XML syntax is not modelled.
-/
namespace Verif.Scope

/-- A name. -/
abbrev Name := String

/-- The type of a variable: `ValueType.hh:112-147`; arrays are told apart because the parser treats them differently. -/
inductive Ty
  | scalar (t : Nat)
  | array (t : Nat)
deriving DecidableEq, Repr

/-- `DeclareVariable`, `DeclareArray` (`parseNode.cc:73-85, 107-158`); `init`: has it an `InitialValue`. -/
structure Decl where
  name : Name
  ty : Ty
  init : Bool := false
deriving DecidableEq, Repr

/-- The value of an `Alias` element of a library call (`parseLibraryCall.cc:52-87, 143-157`): a variable or another expression. -/
inductive Arg
  | var (x : Name)
  | other (ty : Ty)
deriving DecidableEq, Repr

/-- What kind of node, as far as names are concerned. -/
inductive Kind
  /-- a node without children (`NodeImpl.cc:300-303`) -/
  | leaf
  /-- `ListNode` -/
  | list
  /-- `LibraryCallNode`, with its aliases -/
  | call (args : List (Name × Arg))
deriving DecidableEq, Repr

/-- A `Node` element: its `NodeId`, declarations and interface (`parseNode.cc:463-736`), and the ids of its children (of a library call: the name
of the called library, which is the id of the called node, `planLibrary.cc:111-138`). -/
structure Elem where
  id : Name := ""
  kind : Kind := .leaf
  locals : List Decl := []
  ins : List Decl := []
  inouts : List Decl := []
  mutexes : List Name := []
  kids : List Name := []
deriving DecidableEq, Repr

/-! ## Variables -/

/-- Expression objects.  The number is the distance of the node that created it from the root. -/
inductive Obj
  /-- a variable: `UserVariable`, `ArrayVariable` (created by a declaration or as the default of an `InOut`) -/
  | var (depth : Nat) (x : Name) (ty : Ty)
  /-- an expression passed to a library, or the default of an `In` variable -/
  | expr (depth : Nat) (x : Name) (ty : Ty)
  /-- `Alias`, `Alias.cc:39-47` -/
  | alias (target : Obj)
deriving DecidableEq, Repr

/-- `valueType()`: `Alias.cc:66-69`. -/
def Obj.ty : Obj → Ty
  | .var _ _ t => t
  | .expr _ _ t => t
  | .alias o => o.ty

/-- `isAssignable()`: `Assignable.hh:90`, `Expression.cc:42`. -/
def Obj.assignable : Obj → Bool
  | .var .. => true
  | _ => false

/-- `getBaseExpression()`: `Alias.cc:81-89`. -/
def Obj.base : Obj → Obj
  | .alias o => o.base
  | o => o

/-- The contents of a `NodeVariableMap` (without its parent map). -/
abbrev Map := List (Name × Obj)

/-- A constructed node: `m_variablesByName` (`none`: not allocated) and `m_aliasMap` (`LibraryCallNode.hh`). -/
structure Frame where
  kind : Kind
  map : Option Map
  alias : Map := []
deriving DecidableEq, Repr

/-- `NodeVariableMap::findVariable`, `NodeVariableMap.cc:58-72`, in a map and its ancestor maps. -/
def search : List Map → Name → Option Obj
  | [], _ => none
  | m :: ms, x => match m.lookup x with
    | some o => some o
    | none => search ms x

mutual
/-- `getChildVariableMap` of the first node: `NodeImpl.cc:300-303`, `ListNode.cc:218-232`, `LibraryCallNode.cc:94-97`; a pointer to a map is the list of the
maps `findVariable` visits from it. -/
def childMaps : List Frame → Option (List Map)
  | [] => none
  | f :: rest => match f.kind with
    | .leaf => none
    | .call _ => some [f.alias]
    | .list => match f.map with
      | some m => some (m :: (childMaps rest).getD [])
      | none => walk rest
/-- The loop in `ListNode.cc:224-231`: the own map of the nearest ancestor that has one (with the map of its parent, `NodeImpl.cc:293-296`). -/
def walk : List Frame → Option (List Map)
  | [] => none
  | n :: r => match n.map with
    | some m => some (m :: (childMaps r).getD [])
    | none => walk r
end

/-- `NodeImpl::findVariable`, `NodeImpl.cc:1584-1618`. -/
def findVariable : List Frame → Name → Option Obj
  | [], _ => none
  | f :: rest, x => match f.map with
    | some m => search (m :: (childMaps rest).getD []) x
    | none => match childMaps rest with
      | some ms => search ms x
      | none => none

/-- Names declared in a node are all different: `checkVariableNameConflicts`, `parseNode.cc:204-271` (which sees mutexes too), and so are aliases,
`parseLibraryCall.cc:64-71`. -/
def Elem.checkNames (e : Elem) : Bool :=
  decide ((e.ins ++ e.inouts ++ e.locals).map Decl.name ++ e.mutexes).Nodup &&
  match e.kind with
  | .call args => decide (args.map Prod.fst).Nodup
  | _ => true

/-- Room for aliases in the map of a library call: `estimateAliasSpace`, `parseLibraryCall.cc:105-115`, and `parseNode.cc:835-836`. -/
def Elem.aliasSpace (e : Elem) : Nat := match e.kind with
  | .call args => args.length
  | _ => 0

/-- The map `initializeNodeVariables` makes, `parseNode.cc:816-857`, `NodeImpl.cc:288-314`. -/
def Elem.initMap (e : Elem) (depth : Nat) : Option Map :=
  if e.locals = [] ∧ e.mutexes = [] ∧ e.ins = [] ∧ e.inouts = [] then none
  else if e.locals.length + e.aliasSpace + (e.ins.length + e.inouts.length) = 0 then none
  else some (e.locals.map fun d => (d.name, .var depth d.name d.ty))

/-- `addLocalVariable`, `NodeImpl.cc:305-314`: `none` if there is no map (an assertion) or the name is in it already. -/
def addLocal (x : Name) (o : Obj) (f : Frame) : Option Frame :=
  match f.map with
  | none => none
  | some m => if (m.lookup x).isSome then none else some { f with map := some ((x, o) :: m) }

/-- `linkInVar`, `parseNode.cc:1095-1161`; `none` is a parser error. -/
def linkIn (anc : List Frame) (d : Decl) (f : Frame) : Option Frame :=
  match findVariable (f :: anc) d.name with
  | some o =>
    if o.ty ≠ d.ty then none
    else if o.assignable then addLocal d.name (.alias o) f
    else some f
  | none => if d.init then addLocal d.name (.expr anc.length d.name d.ty) f else none

/-- `linkInOutVar`, `parseNode.cc:1168-1215`; a default for an array is refused by `createAssignable` (`createExpression.cc:154-160`). -/
def linkInOut (anc : List Frame) (d : Decl) (f : Frame) : Option Frame :=
  match findVariable (f :: anc) d.name with
  | some o => if o.ty ≠ d.ty then none else if o.assignable then some f else none
  | none => if d.init then (match d.ty with
      | .scalar _ => addLocal d.name (.var anc.length d.name d.ty) f
      | .array _ => none) else none

/-- `linkAndInitializeInterfaceVars`, `parseNode.cc:1217-1236`. -/
def linkAll (anc : List Frame) : List Decl → (List Frame → Decl → Frame → Option Frame) → Frame → Option Frame
  | [], _, f => some f
  | d :: ds, g, f => match g anc d f with
    | some f => linkAll anc ds g f
    | none => none

/-- `finalizeAliases`, `parseLibraryCall.cc:143-157`: a variable is passed itself (`VariableReferenceFactory.cc:97-126`), another expression is made. -/
def aliases (chain : List Frame) (depth : Nat) : List (Name × Arg) → Option Map
  | [] => some []
  | (x, a) :: rest =>
    let o := match a with
      | .var y => findVariable chain y
      | .other t => some (.expr depth x t)
    match o, aliases chain depth rest with
    | some o, some m => some ((x, o) :: m)
    | _, _ => none

/-- One node, its ancestors being finalized: `constructNode`, `parseNode.cc:907-976`, and `finalizeNode`, `1274-1315`, as to variables. -/
def Elem.frame (anc : List Frame) (e : Elem) : Option Frame :=
  if e.checkNames then
    let f : Frame := { kind := e.kind, map := e.initMap anc.length }
    match linkAll anc e.ins linkIn f with
    | none => none
    | some f => match linkAll anc e.inouts linkInOut f with
      | none => none
      | some f => match e.kind with
        | .call args => (aliases (f :: anc) anc.length args).map fun m => { f with alias := m }
        | _ => some f
  else none

/-- The nodes of a path (nearest first); `none` if the plan is refused. -/
def frames : List Elem → Option (List Frame)
  | [] => some []
  | e :: rest => match frames rest with
    | none => none
    | some fs => (e.frame fs).map (· :: fs)

/-- `createAssignable`, `createExpression.cc:145-170`, of a variable: refused if not assignable; the result is what is written. -/
def target (chain : List Frame) (x : Name) : Option Obj :=
  match findVariable chain x with
  | some o => if o.assignable then some o else none
  | none => none

/-- `createMutableArrayReference`, `ArrayReferenceFactory.cc:169-193`, of an element of the array named: the exception for a read-only array is caught and dropped
(184-189); what is written is the base expression (`ArrayReference.cc:224-233`), if it is a variable (`235-241`: a plan error otherwise). -/
def elementTarget (chain : List Frame) (x : Name) : Option Obj :=
  match findVariable chain x with
  | some o => match o.ty, o.base with
    | .array _, .var d y t => some (.var d y t)
    | _, _ => none
  | none => none

/-! ## Mutexes -/

/-- A mutex: local to the node at this distance from the root, or global (`Mutex.cc:71-99`). -/
inductive MutexRef
  | local (depth : Nat) (m : Name)
  | global (m : Name)
deriving DecidableEq, Repr

/-- `NodeImpl::findMutex`, `NodeImpl.cc:1647-1679`; `globals`: all global mutexes made so far. -/
def findMutex (globals : List Name) : List Elem → Name → Option MutexRef
  | [], m => if m ∈ globals then some (.global m) else none
  | e :: rest, m => if m ∈ e.mutexes then some (.local rest.length m) else findMutex globals rest m

/-- The nodes of the path in the same document (file): up to the called node (`parsePlan.cc:102-128`: a library is parsed from its own document). -/
def document : List Elem → List Elem
  | [] => []
  | e :: rest => e :: match rest with
    | [] => []
    | p :: _ => match p.kind with
      | .call _ => []
      | _ => document rest

/-- `isMutexInScope`, `parseNode.cc:299-333`; `docGlobals`: the `GlobalDeclarations` of the document. -/
def mutexInScope (docGlobals : List Name) (path : List Elem) (m : Name) : Bool :=
  (document path).any (fun e => decide (m ∈ e.mutexes)) || decide (m ∈ docGlobals)

/-! ## Node references -/

/-- A node found: the ancestor (or self) at this distance from the root, or its child with this id. -/
inductive NodeRef
  | self (depth : Nat)
  | child (depth : Nat) (id : Name)
deriving DecidableEq, Repr

/-- `parseNodeId`, `parseNodeReference.cc:223-255`, and `ListNode::findChild`, `ListNode.cc:380-394`; `none` is the internal error. -/
def parseNodeId : List Elem → Name → Option NodeRef
  | [], _ => none
  | e :: rest, x =>
    if e.id = x then some (.self rest.length)
    else if x ∈ e.kids then some (.child rest.length x)
    else parseNodeId rest x

/-- `checkNodeId`, `parseNodeReference.cc:121-161`, in the document. -/
def checkNodeId (path : List Elem) (x : Name) : Bool :=
  decide (x ≠ "") && (document path).any fun e => decide (e.id = x) || decide (x ∈ e.kids)

/-- The directions of a `NodeRef`: `parseNodeReference.cc:77-119, 179-221`. -/
inductive Dir
  | self
  | parent
  | child (x : Name)
  | sibling (x : Name)
deriving DecidableEq, Repr

/-- `parseNodeRef`, `parseNodeReference.cc:179-221`; `none` is an internal error. -/
def parseNodeRef (path : List Elem) : Dir → Option NodeRef
  | .self => match path with
    | [] => none
    | _ :: rest => some (.self rest.length)
  | .parent => match path with
    | _ :: _ :: rest => some (.self rest.length)
    | _ => none
  | .child x => match path with
    | e :: rest => if x ∈ e.kids then some (.child rest.length x) else none
    | [] => none
  | .sibling x => match path with
    | _ :: p :: rest => if x ∈ p.kids then some (.child rest.length x) else none
    | _ => none

/-- `checkNodeRef`, `parseNodeReference.cc:77-119`. -/
def checkNodeRef (path : List Elem) : Dir → Bool
  | .self => decide (path ≠ [])
  | .parent => match document path with
    | _ :: _ :: _ => true
    | _ => false
  | .child x => decide (x ≠ "") && match path with
    | e :: _ => decide (x ∈ e.kids)
    | [] => false
  | .sibling x => decide (x ≠ "") && match document path with
    | _ :: p :: _ => decide (x ∈ p.kids)
    | _ => false

/-- `checkChildNodes`, `parseNode.cc:374-403`: ids of children are different from each other; the comparison of a child's id with the parent's is one
of pointers (384), which always differ. -/
def checkKids (e : Elem) : Bool := decide e.kids.Nodup

/-! ## Library calls -/

/-- The library calls made by the nodes of a library: `parseNode.cc:886-976`, as many as there are in the tree, in order. -/
abbrev Libs := Name → Option (List Name)

mutual
/-- `constructLibraryCall`, `parseLibraryCall.cc:123-140`, with a limit on nested calls: `none` if the limit is exceeded, `some none` if a
library is not found (a parser error), `some (some n)`: the number of calls made. -/
def expand (libs : Libs) : Nat → Name → Option (Option Nat)
  | 0, _ => none
  | k + 1, l => match libs l with
    | none => some none
    | some calls => match expandAll libs k calls with
      | none => none
      | some none => some none
      | some (some n) => some (some (n + 1))
/-- The calls in a tree, in order. -/
def expandAll (libs : Libs) (k : Nat) : List Name → Option (Option Nat)
  | [] => some (some 0)
  | l :: ls => match expand libs k l with
    | none => none
    | some none => some none
    | some (some n) => match expandAll libs k ls with
      | none => none
      | some none => some none
      | some (some m) => some (some (n + m))
end

end Verif.Scope
