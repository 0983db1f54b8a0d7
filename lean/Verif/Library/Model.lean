set_option autoImplicit false
/-!
Model of the tables of names, `/repo/src/utils/SimpleMap.hh`, `/repo/src/utils/map-utils.hh`, and of the table of library nodes, `/repo/src/xml-parser/planLibrary.cc`, with
`loadXmlFile` of `/repo/src/xml-parser/parsePlan.cc` and the library members of `/repo/src/app-framework/InterfaceManager.cc`.

Simplified: a document is known by its address, the name of its root node, whether `checkPlan` accepts it, and a number that stands for its contents; the file system is a function that may be
another one at every call; symbol tables have the lifetime of their documents. Not modelled: threads, allocation failure.
-/
namespace Verif.Library

/-! ### SimpleMap -/

/-- `KEY_COMP`: the two functions of a comparator. `SimpleMap.hh:41-55`, `map-utils.hh:44-65`. -/
structure Comp (K : Type) where
  lt : K → K → Bool
  eq : K → K → Bool

/-- The store of a `SimpleMap`, `SimpleMap.hh:249`. -/
abbrev Store (K V : Type) := List (K × V)

/-- The loop of `std::lower_bound` on `m_store`, `SimpleMap.hh:127-128`: `len` elements from `first` are left; the first argument bounds the iterations. -/
def lowerBound {K V : Type} (c : Comp K) (l : Store K V) (k : K) : Nat → Nat → Nat → Nat
  | 0, first, _ => first
  | fuel + 1, first, len =>
    if len = 0 then first
    else match l[first + len / 2]? with
      | none => first
      | some e => if c.lt e.1 k then lowerBound c l k fuel (first + len / 2 + 1) (len - len / 2 - 1) else lowerBound c l k fuel first (len / 2)

/-- `std::lower_bound(m_store.begin(), m_store.end(), index, s_comp)`, `SimpleMap.hh:127-128`. -/
def position {K V : Type} (c : Comp K) (l : Store K V) (k : K) : Nat := lowerBound c l k l.length 0 l.length

/-- `it != m_store.end() && s_comp.equal(*it, index)`, `SimpleMap.hh:129, 140, 162`. -/
def hit {K V : Type} (c : Comp K) (l : Store K V) (k : K) (i : Nat) : Bool := match l[i]? with
  | some e => c.eq e.1 k
  | none => false

/-- `find`, `SimpleMap.hh:135-155, 185-195`. -/
def find {K V : Type} (c : Comp K) (l : Store K V) (k : K) : Option V :=
  match l[position c l k]? with
  | some e => if c.eq e.1 k then some e.2 else none
  | none => none

/-- `insertEntry`, `SimpleMap.hh:244-247`. -/
def insertAt {K V : Type} (l : Store K V) (i : Nat) (e : K × V) : Store K V := l.take i ++ e :: l.drop i

/-- `insert`, `SimpleMap.hh:124-133`: the store and the result. -/
def insert {K V : Type} (c : Comp K) (l : Store K V) (k : K) (v : V) : Store K V × Bool :=
  if hit c l k (position c l k) then (l, false) else (insertAt l (position c l k) (k, v), true)

/-- An assignment `m[index] = v`, `SimpleMap.hh:157-165`. The key of an entry that is there stays. -/
def assign {K V : Type} (c : Comp K) (l : Store K V) (k : K) (v : V) : Store K V :=
  if hit c l k (position c l k) then l.modify (position c l k) (fun e => (e.1, v)) else insertAt l (position c l k) (k, v)

/-- The calls that change a `SimpleMap`. `SimpleMap.hh:124, 157, 217`. -/
inductive Change (K V : Type)
  | insert (k : K) (v : V)
  | assign (k : K) (v : V)
  | clear

/-- One call. `SimpleMap.hh:124-165, 217-220`. -/
def change {K V : Type} (c : Comp K) (l : Store K V) : Change K V → Store K V
  | .insert k v => (insert c l k v).1
  | .assign k v => assign c l k v
  | .clear => []

/-- Strings are compared byte by byte, as `unsigned char`: `std::string::operator<` and `strcmp`, `SimpleMap.hh:47`, `map-utils.hh:46-54`. -/
def strLt : List Char → List Char → Bool
  | [], [] => false
  | [], _ :: _ => true
  | _ :: _, [] => false
  | a :: s, b :: t => if a.toNat < b.toNat then true else if b.toNat < a.toNat then false else strLt s t

/-- `SimpleKeyComparator<std::string>` and `CStringComparator`, `SimpleMap.hh:41-55`, `map-utils.hh:44-65`. -/
def strComp : Comp (List Char) := ⟨strLt, fun a b => decide (a = b)⟩

/-! ### The library table -/

/-- An XML document, see above. `planLibrary.hh`: `Library`. -/
structure Doc where
  ptr : Nat
  nodeId : List Char
  ok : Bool
  text : Nat
deriving DecidableEq, Repr

/-- What a file contains: something that is not XML, or a document. `parsePlan.cc:48-65`. -/
inductive File
  | malformed
  | doc (nodeId : List Char) (ok : Bool) (text : Nat)
deriving DecidableEq, Repr

/-- The files there are. -/
abbrev FS := List Char → Option File

/-- `s_libraryMap`, `s_librarySearchPaths` (`planLibrary.cc:51-55`); the documents allocated and not deleted; the next address; whether a document was deleted that was not allocated. -/
structure Lib where
  table : Store (List Char) Doc := []
  paths : List (List Char) := []
  live : List Nat := []
  next : Nat := 0
  bad : Bool := false

/-- What a function returns: a library, a null pointer, or an exception. -/
inductive Res
  | lib (d : Doc)
  | null
  | throw
deriving DecidableEq, Repr

/-- `delete doc`. -/
def Lib.free (s : Lib) (p : Nat) : Lib :=
  if p ∈ s.live then { s with live := s.live.erase p } else { s with bad := true }

/-- `rfind(".plx")`, `planLibrary.cc:115`. -/
def rfindPlx : List Char → Option Nat
  | [] => none
  | c :: r => match rfindPlx r with
    | some i => some (i + 1)
    | none => if ".plx".toList.isPrefixOf (c :: r) then some 0 else none

/-- `find_last_of("/\\")`, `planLibrary.cc:120`. -/
def lastSlash : List Char → Option Nat
  | [] => none
  | c :: r => match lastSlash r with
    | some i => some (i + 1)
    | none => if c = '/' ∨ c = '\\' then some 0 else none

/-- The part after the last slash, `planLibrary.cc:120-122`. -/
def baseName (s : List Char) : List Char := match lastSlash s with
  | some i => s.drop (i + 1)
  | none => s

/-- The name of the node and the name of the file, `planLibrary.cc:113-122`. -/
def names (name : List Char) : List Char × List Char := match rfindPlx name with
  | none => (baseName name, name ++ ".plx".toList)
  | some i => (baseName (name.take i), name)

/-- `loadLibraryFile`, `planLibrary.cc:91-108`: the file itself, then in the directories of the search path. -/
def searchFile (fs : FS) (fname : List Char) (paths : List (List Char)) : Option File :=
  match fs fname with
  | some f => some f
  | none => paths.findSome? (fun d => fs (d ++ '/' :: fname))

/-- The end of `loadLibraryDocument`: a new version replaces the old one (`planLibrary.cc:179-186`), or a new entry is made (`planLibrary.cc:187-198`). -/
def Lib.store (s : Lib) (d : Doc) (old : Option Doc) : Lib := match old with
  | some l => { s.free l.ptr with table := assign strComp s.table d.nodeId d }
  | none => { s with table := assign strComp s.table d.nodeId d }

/-- `loadLibraryDocument`, `planLibrary.cc:150-199`. -/
def Lib.loadDocument (s : Lib) (d : Doc) : Lib × Res :=
  if (find strComp s.table d.nodeId).map Doc.ptr = some d.ptr then (s.free d.ptr, match find strComp s.table d.nodeId with | some l => .lib l | none => .null)
  else if d.ok = false then (s.free d.ptr, .null)
  else (s.store d (find strComp s.table d.nodeId), .lib d)

/-- A new document. `parsePlan.cc:51`. -/
def Lib.alloc (s : Lib) : Lib := { s with live := s.next :: s.live, next := s.next + 1 }

/-- `loadLibraryNode` after the file has been searched, `planLibrary.cc:124-138`. A file that is no XML is an exception (`parsePlan.cc:57-63`), its document having been deleted. -/
def Lib.loadFile (s : Lib) (nodeName : List Char) : Option File → Lib × Res
  | none => (s, .null)
  | some .malformed => (s, .throw)
  | some (.doc nodeId ok text) =>
    if nodeName ≠ nodeId then (s.alloc.free s.next, .null) else s.alloc.loadDocument ⟨s.next, nodeId, ok, text⟩

/-- `loadLibraryNode`, `planLibrary.cc:111-138`. -/
def Lib.loadNode (s : Lib) (fs : FS) (name : List Char) : Lib × Res := s.loadFile (names name).1 (searchFile fs (names name).2 s.paths)

/-- `getLibraryNode`, `planLibrary.cc:207-216`. -/
def Lib.get (s : Lib) (fs : FS) (name : List Char) (load : Bool) : Lib × Res := match find strComp s.table name with
  | some d => (s, .lib d)
  | none => if load then s.loadNode fs name else (s, .null)

/-- `isLibraryLoaded`, `planLibrary.cc:201-205`. -/
def Lib.isLoaded (s : Lib) (name : List Char) : Bool := (find strComp s.table name).isSome

/-- `InterfaceManager::handleLoadLibrary`, `InterfaceManager.cc:392-398`: nothing if there was an exception. -/
def Lib.handleLoad (s : Lib) (fs : FS) (name : List Char) : Lib × Option Bool := match s.loadNode fs name with
  | (s', .lib _) => (s', some true)
  | (s', .null) => (s', some (s'.isLoaded name))
  | (s', .throw) => (s', none)

/-- `cleanLibraryMap`, `planLibrary.cc:78-88`. -/
def Lib.clean (s : Lib) : Lib := { s.table.foldl (fun s e => s.free e.2.ptr) s with table := [] }

/-- Calls: of a plan (`get`, `parseLibraryCall.cc:130, 167`), of `loadLibraryNode`, of `handleAddLibrary` with a new document or with one handed over before, of the functions for the
search path, of the finalizer. `planLibrary.hh`. -/
inductive Op
  | get (fs : FS) (name : List Char) (load : Bool)
  | load (fs : FS) (name : List Char)
  | add (nodeId : List Char) (ok : Bool) (text : Nat)
  | again (d : Doc)
  | append (dir : List Char)
  | prepend (dir : List Char)
  | setPaths (dirs : List (List Char))
  | clean

/-- One call: the state and the result, if it has one. `planLibrary.cc:57-216`. -/
def Lib.step (s : Lib) : Op → Lib × Res
  | .get fs name load => s.get fs name load
  | .load fs name => s.loadNode fs name
  | .add nodeId ok text => s.alloc.loadDocument ⟨s.next, nodeId, ok, text⟩
  | .again d => s.loadDocument d
  | .append dir => ({ s with paths := s.paths ++ [dir] }, .null)
  | .prepend dir => ({ s with paths := dir :: s.paths }, .null)
  | .setPaths dirs => ({ s with paths := dirs }, .null)
  | .clean => (s.clean, .null)

/-- A history of calls. -/
def Lib.run (s : Lib) (ops : List Op) : Lib := ops.foldl (fun s o => (s.step o).1) s

end Verif.Library
