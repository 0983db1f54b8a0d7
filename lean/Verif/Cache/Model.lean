import Verif.Keys.Model
import Verif.Value.Order
set_option autoImplicit false
/-!
Model of the contents of the state cache: `/repo/src/intfc/CachedValueImpl.cc`, `/repo/src/intfc/StateCacheEntry.cc`, `/repo/src/intfc/StateCache.cc`; all the
value types.

`none` stands for an exception or a crash that leaves the function. Not modelled here: time stamps and the query of a stale value, thresholds, what a lookup does when it is notified
(`Verif/Lookup/Model.lean`, C41-C44); the search in the map (`Verif/Keys/Model.lean`, C76): two states have the same entry iff they are the same – here: iff name and parameters are
identical, so that the Integer 1 and the Real 1.0 as parameters make different states, which they do not in the code.
-/
namespace Verif.Cache
open Verif.Value Verif.Keys

/-- `CachedValue`: a `VoidCachedValue` or a `CachedValueImpl` of some type with its `m_known`, `m_value` (`CachedValueImpl.hh`). The content of a Real cell that is `.int i` stands for
`(Real) i`. -/
inductive Cell
  | void
  | typed (t : VType) (v : Option Payload)
deriving DecidableEq, Repr

/-- `CachedValueFactory`, `CachedValueImpl.cc:691-727`. -/
def factory : VType → Option Cell
  | .boolean => some (.typed .boolean none)
  | .integer => some (.typed .integer none)
  | .date => some (.typed .real none)
  | .duration => some (.typed .real none)
  | .real => some (.typed .real none)
  | .string => some (.typed .string none)
  | .booleanArray => some (.typed .booleanArray none)
  | .integerArray => some (.typed .integerArray none)
  | .realArray => some (.typed .realArray none)
  | .stringArray => some (.typed .stringArray none)
  | .unknownT => some .void
  | _ => none

/-- `valueType`, `CachedValueImpl.cc:64-67, 187-210`. -/
def Cell.type : Cell → VType
  | .void => .unknownT
  | .typed t _ => t

/-- `getValue`, `getValuePointer` for the cell's own type, `toValue`: `none` = unknown. `CachedValueImpl.cc:238-350`, `CachedValueImpl.hh:84-107`. -/
def Cell.get : Cell → Option Payload
  | .void => none
  | .typed _ v => v

/-- `setUnknown`, `CachedValueImpl.cc:386-425`, `CachedValueImpl.hh:109-116`; the result: changed. -/
def Cell.setUnknown : Cell → Cell × Bool
  | .void => (.void, false)
  | .typed t v => (.typed t none, v.isSome)

/-- Does `Value::getValue` (`getValuePointer`) for the type of a cell succeed on a known value? `Value.cc:742-915`: an Integer can be got as a Real. -/
def fits (t : VType) (p : Payload) : Bool :=
  decide (p.type = t) || (decide (t = .real) && decide (p.type = .integer))

/-- `m_value != val` is false. -/
def same (q p : Payload) : Bool := Value.equals (.known q) (.known p)

/-- `update(timestamp, T)`, `updatePtr`, `CachedValueImpl.cc:536-588, 664-685`. -/
def put (t : VType) (v : Option Payload) (p : Payload) : Cell × Bool :=
  match v with
  | some q => if same q p then (.typed t v, false) else (.typed t (some p), true)
  | none => (.typed t (some p), true)

/-- `update(timestamp, Value)`, `CachedValueImpl.cc:86-94, 598-658`. -/
def Cell.update (c : Cell) (x : Value) : Option (Cell × Bool) :=
  match c, x with
  | .void, .known _ => none
  | .void, .unknown _ => some (.void, true)
  | .typed t v, .known p => if fits t p then some (put t v p) else none
  | .typed t v, .unknown _ => some (Cell.setUnknown (.typed t v))

/-- `isNumericType`, `ValueType.cc:132-144`. -/
def isNumeric : VType → Bool
  | .integer | .real | .date | .duration => true
  | _ => false

/-- `ensureCachedValue`, `StateCacheEntry.cc:392-424`: `none` = the factory fails; otherwise the cell and whether it can take a value of the type. -/
def ensureCell (m : Option Cell) (t : VType) : Option (Cell × Bool) :=
  match m with
  | none => (factory t).map (fun c => (c, true))
  | some c =>
    if c.type = t ∨ t = .unknownT then some (c, true)
    else if c.type = .unknownT then (factory t).map (fun c => (c, true))
    else if t = .integer ∧ isNumeric c.type = true then some (c, true)
    else if t = .real ∧ (c.type = .date ∨ c.type = .duration) then some (c, true)
    else some (c, false)

/-- `StateCacheEntryImpl`, `StateCacheEntry.cc:523-534`: `m_value`, how many lookups are registered, how often they have been notified. -/
structure Entry where
  value : Option Cell := none
  lookups : Nat := 0
  notified : Nat := 0

/-- The end of `update`: `notify()` if changed. `StateCacheEntry.cc:203-209`. -/
def Entry.stored (e : Entry) (r : Cell × Bool) : Entry :=
  { e with value := some r.1, notified := if r.2 then e.notified + 1 else e.notified }

/-- After `ensureCachedValue`. `StateCacheEntry.cc:203-209`. -/
def Entry.take (e : Entry) (x : Value) (r : Cell × Bool) : Option Entry :=
  if r.2 then (r.1.update x).map e.stored else some { e with value := some r.1 }

/-- `updateValue`, `update(Value)`, `StateCacheEntry.cc:203-224`. The overloads for native types (`:232-360`) are this with the value made from the argument. -/
def Entry.update (e : Entry) (x : Value) : Option Entry :=
  (ensureCell e.value x.type).bind (e.take x)

/-- `setUnknown`, `StateCacheEntry.cc:226-231`. -/
def Entry.setUnknown (e : Entry) : Entry :=
  match e.value with
  | none => e
  | some c => e.stored c.setUnknown

/-- `m_map`, `StateCache.cc:68, 250`. -/
abbrev Cache := State → Option Entry

/-- `ensureStateCacheEntry`, `StateCache.cc:112-118`: what it returns. -/
def Cache.entry (c : Cache) (s : State) : Entry := (c s).getD {}

/-- An entry is written. `StateCache.cc:112-118`. -/
def Cache.set (c : Cache) (s : State) (e : Option Entry) : Cache := fun s' => if s' = s then e else c s'

/-- `lookupReturn`, `StateCache.cc:103-106`, and any other update through `ensureStateCacheEntry` or a `LookupReceiver`. -/
def Cache.update (c : Cache) (s : State) (x : Value) : Option Cache :=
  ((c.entry s).update x).map (fun e => c.set s (some e))

/-- `ensureStateCacheEntry(state)->setUnknown()`, `StateCache.cc:149-150`; `AdapterConfiguration.cc:488`. -/
def Cache.setUnknown (c : Cache) (s : State) : Cache := c.set s (some (c.entry s).setUnknown)

/-- A lookup registers, `StateCacheEntry.cc:91-102` (that the interface is asked for a value is not part of this function: its answer is another update). -/
def Cache.register (c : Cache) (s : State) : Cache :=
  c.set s (some { c.entry s with lookups := (c.entry s).lookups + 1 })

/-- A lookup that is registered unregisters, `StateCacheEntry.cc:107-143`. -/
def Cache.unregister (c : Cache) (s : State) : Option Cache :=
  match c s with
  | none => none
  | some e => if e.lookups = 0 then none else some (c.set s (some { e with lookups := e.lookups - 1 }))

/-- What a lookup of the state reads: the value of the entry, `none` = unknown. `Lookup.cc:213-330`, `StateCacheEntry.cc:191-194`. -/
def Cache.read (c : Cache) (s : State) : Option Payload := ((c s).bind (·.value)).bind Cell.get

/-- Things that happen to the cache: `StateCache.cc:103-127`, `StateCacheEntry.cc:91-231`. -/
inductive Ev
  | update (s : State) (x : Value)
  | setUnknown (s : State)
  | register (s : State)
  | unregister (s : State)

/-- One of them. `StateCache.cc:103-127`, `StateCacheEntry.cc:91-231`. -/
def Cache.step (c : Cache) : Ev → Option Cache
  | .update s x => c.update s x
  | .setUnknown s => some (c.setUnknown s)
  | .register s => some (c.register s)
  | .unregister s => c.unregister s

/-- A history of the cache from its construction, `StateCache.cc:208-214`. -/
def Cache.run (evs : List Ev) : Option Cache := evs.foldlM Cache.step (fun _ => none)

end Verif.Cache
