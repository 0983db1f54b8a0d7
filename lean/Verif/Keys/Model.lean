import Verif.Value.Serial
import Verif.Value.Order
/-!
Model of the keys things are looked up by: states (`/repo/src/intfc/State.cc`), the map of the state cache (`/repo/src/intfc/StateCache.cc:68, 112-118`), sorted vectors as maps and
sets (`/repo/src/utils/{SimpleMap,SimpleSet}.hh`), and the variable maps of nodes (`/repo/src/exec/NodeVariableMap.cc`).

Simplifications.  `std::map` is a sorted sequence searched from below, as the C++ standard specifies it; `std::lower_bound` is the bisection of libstdc++.  An iterator is an index.
A cache entry is a number, given out in the order of creation.
-/
namespace Verif.Keys
open Verif.Value

/-! ### Bisection -/

/-- The loop of `std::lower_bound` (`bits/stl_algobase.h`), used in `SimpleMap.hh:128, 139, 161` and `SimpleSet.hh:78`: `below x` is `comp(x, val)`.  The first argument bounds the
number of rounds; `len` falls in each, so the initial `len` is enough. -/
def lowerBoundLoop {α : Type} (below : α → Bool) (l : List α) : Nat → Nat → Nat → Nat
  | 0, first, _ => first
  | fuel + 1, first, len =>
    if len = 0 then first
    else
      match l[first + len / 2]? with
      | some x => if below x then lowerBoundLoop below l fuel (first + len / 2 + 1) (len - len / 2 - 1) else lowerBoundLoop below l fuel first (len / 2)
      | none => first

/-- `std::lower_bound(begin, end, val, comp)`, `SimpleMap.hh:128`. -/
def lowerBound {α : Type} (below : α → Bool) (l : List α) : Nat := lowerBoundLoop below l l.length 0 l.length

/-! ### `SimpleMap` -/

/-- A key comparator: `SimpleMap.hh:42-55`. -/
structure Comp (K : Type) where
  lt : K → K → Bool
  equal : K → K → Bool

/-- `SimpleMap::find`, `SimpleMap.hh:135-155`: the index, the length being `end()`. -/
def find {K V : Type} (c : Comp K) (m : List (K × V)) (k : K) : Nat :=
  let it := lowerBound (fun e => c.lt e.1 k) m
  match m[it]? with
  | none => it
  | some e => if c.equal e.1 k then it else m.length

/-- `SimpleMap::insert`, `SimpleMap.hh:124-133, 244-247`. -/
def insert {K V : Type} (c : Comp K) (m : List (K × V)) (k : K) (v : V) : Bool × List (K × V) :=
  let it := lowerBound (fun e => c.lt e.1 k) m
  match m[it]? with
  | some e => if c.equal e.1 k then (false, m) else (true, m.insertIdx it (k, v))
  | none => (true, m.insertIdx it (k, v))

/-- `SimpleMap::operator[]`, `SimpleMap.hh:157-165`: the map with an entry for the key, and its index. -/
def access {K V : Type} (c : Comp K) (dflt : V) (m : List (K × V)) (k : K) : List (K × V) × Nat :=
  let it := lowerBound (fun e => c.lt e.1 k) m
  match m[it]? with
  | some e => if c.equal e.1 k then (m, it) else (m.insertIdx it (k, dflt), it)
  | none => (m.insertIdx it (k, dflt), it)

/-- `m[k] = v`, through the reference `SimpleMap.hh:157-165` returns. -/
def assign {K V : Type} (c : Comp K) (dflt : V) (m : List (K × V)) (k : K) (v : V) : List (K × V) :=
  let r := access c dflt m k
  match r.1[r.2]? with
  | some e => r.1.set r.2 (e.1, v)
  | none => r.1

/-- `SimpleMap::operator[] const`, `SimpleMap.hh:167-177`. -/
def read {K V : Type} (c : Comp K) (dflt : V) (m : List (K × V)) (k : K) : V :=
  let it := lowerBound (fun e => c.lt e.1 k) m
  match m[it]? with
  | some e => if c.equal e.1 k then e.2 else dflt
  | none => dflt

/-- What a map is asked: `SimpleMap.hh:124-177`. -/
inductive MapOp (K V : Type)
  | insert (k : K) (v : V)
  | assign (k : K) (v : V)
  | read (k : K)
  | find (k : K)

/-- What it answers. (Not in the code: the results of `SimpleMap.hh:124-177` in one type.) -/
inductive MapRes (V : Type)
  | bool (b : Bool)
  | val (v : V)
  | found (v : Option V)
  | none
deriving DecidableEq, Repr

/-- One operation, `SimpleMap.hh:124-177`; the result of `find` is the value the iterator points to, if it is not `end()`. -/
def MapOp.run {K V : Type} (c : Comp K) (dflt : V) (m : List (K × V)) : MapOp K V → List (K × V) × MapRes V
  | .insert k v => ((Keys.insert c m k v).2, .bool (Keys.insert c m k v).1)
  | .assign k v => (Keys.assign c dflt m k v, .none)
  | .read k => (m, .val (Keys.read c dflt m k))
  | .find k => (m, .found ((m[Keys.find c m k]?).map Prod.snd))

/-- A history of operations (clients of `SimpleMap.hh`), with the results. -/
def runMap {K V : Type} (c : Comp K) (dflt : V) : List (MapOp K V) → List (K × V) → List (K × V) × List (MapRes V)
  | [], m => (m, [])
  | o :: os, m => ((runMap c dflt os (o.run c dflt m).1).1, (o.run c dflt m).2 :: (runMap c dflt os (o.run c dflt m).1).2)

/-! ### `SimpleSet` -/

/-- `SimpleSet::find`, `SimpleSet.hh:98-107, 203-206`. -/
def setFind {K : Type} (lt : K → K → Bool) (s : List K) (k : K) : Nat :=
  let it := lowerBound (fun e => lt e k) s
  match s[it]? with
  | none => it
  | some e => if !lt e k && !lt k e then it else s.length

/-- `SimpleSet::insert`, `SimpleSet.hh:74-83`. -/
def setInsert {K : Type} (lt : K → K → Bool) (s : List K) (k : K) : Bool × List K :=
  let it := lowerBound (fun e => lt e k) s
  match s[it]? with
  | some e => if !lt e k && !lt k e then (false, s) else (true, s.insertIdx it k)
  | none => (true, s.insertIdx it k)

/-- `SimpleSet::contains`, `SimpleSet.hh:109-113`: `std::binary_search`. -/
def setContains {K : Type} (lt : K → K → Bool) (s : List K) (k : K) : Bool :=
  match s[lowerBound (fun e => lt e k) s]? with
  | some e => !lt k e
  | none => false

/-- `SimpleSet::erase(val)`, `SimpleSet.hh:125-132`. -/
def setErase {K : Type} (lt : K → K → Bool) (s : List K) (k : K) : Bool × List K :=
  let it := setFind lt s k
  if it = s.length then (false, s) else (true, s.eraseIdx it)

/-- What a set is asked: `SimpleSet.hh:74-132`. -/
inductive SetOp (K : Type)
  | insert (k : K)
  | erase (k : K)
  | contains (k : K)

/-- One operation, `SimpleSet.hh:74-132`. -/
def SetOp.run {K : Type} (lt : K → K → Bool) (s : List K) : SetOp K → List K × Bool
  | .insert k => ((setInsert lt s k).2, (setInsert lt s k).1)
  | .erase k => ((setErase lt s k).2, (setErase lt s k).1)
  | .contains k => (s, setContains lt s k)

/-- A history of operations (clients of `SimpleSet.hh`), with the results. -/
def runSet {K : Type} (lt : K → K → Bool) : List (SetOp K) → List K → List K × List Bool
  | [], s => (s, [])
  | o :: os, s => ((runSet lt os (o.run lt s).1).1, (o.run lt s).2 :: (runSet lt os (o.run lt s).1).2)

/-! ### Variable maps -/

/-- `CStringComparator`, `map-utils.hh:44-60`: `strcmp` compares as unsigned characters, like `std::string`. -/
def cString : Comp Str := ⟨strLt, fun a b => decide (a = b)⟩

/-- A node's map filled with declarations, in order (`NodeImpl.cc`, `addLocalVariable`): `insert` refuses a second one of the same name. -/
def fill {V : Type} : List (Str × V) → List (Str × V) → List (Str × V)
  | [], m => m
  | d :: ds, m => fill ds (insert cString m d.1 d.2).2

/-- `NodeVariableMap::findVariable`, `NodeVariableMap.cc:58-72`: in the map, then in its ancestors'. -/
def findVariable {V : Type} : List (List (Str × V)) → Str → Option V
  | [], _ => none
  | m :: ms, x => match m[find cString m x]? with
    | some e => some e.2
    | none => findVariable ms x

/-! ### States -/

/-- `State`: `State.hh`, `m_name`, `m_parameters`. -/
structure State where
  name : Str
  params : List Value
deriving DecidableEq, Repr

/-- The loop over the parameters in `operator<`, `State.cc:292-300` (`a > b` is `b.lessThan(a)`, `Value.hh:341-344`). -/
def paramsLt : List Value → List Value → Bool
  | a :: as, b :: bs => if a.lessThan b then true else if b.lessThan a then false else paramsLt as bs
  | _, _ => false

/-- `operator<(State const &, State const &)`, `State.cc:279-301`. -/
def State.lt (a b : State) : Bool :=
  if strLt a.name b.name then true
  else if strLt b.name a.name then false
  else if a.params.length < b.params.length then true
  else if a.params.length > b.params.length then false
  else paramsLt a.params b.params

/-- The map of the cache and the next free entry: `StateCache.cc:68`. -/
structure Cache where
  map : List (State × Nat) := []
  next : Nat := 0

/-- `ensureStateCacheEntry`, `StateCache.cc:112-118`: `std::map::find` (an entry that is neither less nor greater), or a new entry at its place. -/
def Cache.ensure (c : Cache) (s : State) : Cache × Nat :=
  let it := lowerBound (fun e => e.1.lt s) c.map
  match c.map[it]? with
  | some e => if s.lt e.1 then ({ map := c.map.insertIdx it (s, c.next), next := c.next + 1 }, c.next) else (c, e.2)
  | none => ({ map := c.map.insertIdx it (s, c.next), next := c.next + 1 }, c.next)

/-- The entries a history of requests gets (`StateCache.cc:103-127`). -/
def requests : List State → Cache → List Nat
  | [], _ => []
  | s :: ss, c => (c.ensure s).2 :: requests ss (c.ensure s).1

/-! ### States as bytes -/

/-- What `State::serialize` does: it crashes, returns a null pointer, or writes bytes (`State.cc:218-230`). -/
inductive Ser
  | crash
  | null
  | bytes (bs : List Byte)
deriving DecidableEq, Repr

/-- The loop over the parameters, `State.cc:227-228`. -/
def serParams : List Value → Option (List Byte)
  | [] => some []
  | v :: vs => match v.serialize with
    | none => none
    | some bs => (serParams vs).map (bs ++ ·)

/-- `State::serialize`, `State.cc:218-230`; the null pointer that `serialize` returns for a name that is too long is used (line 224). -/
def State.serialize (s : State) : Ser :=
  match (Value.known (.str s.name)).serialize with
  | none => .crash
  | some nm => match serParams s.params with
    | none => .null
    | some ps => .bytes (tag .stateT :: nm ++ serSize s.params.length ++ ps)

/-- The null pointer returned for a bad name is used: `State.cc:242-244`. -/
def orCrash {α : Type} (m : Rd α) : Rd α := fun b => match m b with
  | .null => .ub
  | r => r

/-- The loop over the parameters, `State.cc:248-249`. -/
def desParams (charSigned : Bool) : Nat → Rd (List Value)
  | 0 => pure []
  | k + 1 => do
    let v ← Value.deserialize charSigned
    let vs ← desParams charSigned k
    pure (v :: vs)

/-- `deserialize<String>`, `ValueType.cc:687-703`. -/
def desString : Rd Str := do
  rdTag .string
  desStrElt

/-- `State::deserialize`, `State.cc:238-251`. -/
def State.deserialize (charSigned : Bool) : Rd State := do
  rdTag .stateT
  let nm ← orCrash desString
  let siz ← desSizeUnsigned
  let ps ← desParams charSigned siz
  pure ⟨nm, ps⟩

/-- `State::serialSize`, `State.cc:259-265`. -/
def State.serialSize (s : State) : Nat := 4 + (Value.known (.str s.name)).serialSize + (s.params.map Value.serialSize).sum

end Verif.Keys
