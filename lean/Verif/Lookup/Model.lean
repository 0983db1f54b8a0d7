/-
Model of lookups and of the state cache: `/repo/src/intfc/{Lookup,StateCacheEntry,StateCache,CachedValueImpl}.cc`.

What is modelled: any number of lookup expressions (`LookupImpl`: LookupNow and LookupOnChange without a
tolerance; `LookupOnChange`: with a tolerance), their activation and deactivation, changes of the state they
name and of their tolerance, any number of states with numeric values, value updates, the query made when a
lookup registers, the thresholds sent to the interface.

Simplifications.  Values are numeric; a Real is an exact number (an `Int` in some unit), so `base - tol`,
`base + tol` are exact, and Integer overflow of these is ignored; `eps x` stands for `fabs(x) * 1e-13`.
Every lookup is being listened to (as in a node condition), so it hears about changes of its state name,
parameters and tolerance; otherwise `Lookup.cc:190-211, 861-875` do not forward them.  The listeners'
reactions are not part of this model: `published` only records that they were called.  Redundant
notifications of a lookup by its own sub-expressions during activation (`:927-928`) are dropped.
-/
namespace Verif.Lookup

/-- The value type of a state (fixed by the first known value: `StateCacheEntry.cc:392-424`). -/
inductive Kind
  | int | real
deriving DecidableEq, Repr

/-- `ThresholdCacheImpl<NUM>`, `Lookup.cc:568-652`: `m_low`, `m_high`, `m_tolerance`, `m_wasKnown`. -/
structure Thr where
  low : Int
  high : Int
  tol : Int
  wasKnown : Bool
deriving DecidableEq, Repr

/-- A lookup expression: `LookupImpl` (`Lookup.cc:68-107`) and, if `onChange`, `LookupOnChange` (`:730-749`). -/
structure Obj where
  /-- is it a `LookupOnChange` (with a tolerance)? -/
  onChange : Bool
  /-- `m_stateIsConstant` -/
  const : Bool
  /-- `isActive()` -/
  active : Bool
  /-- the state named by the current values of name and parameter expressions; `none` if one is unknown -/
  name : Option Nat
  /-- `m_cachedState` -/
  cachedState : Nat
  /-- `m_stateKnown` -/
  stateKnown : Bool
  /-- `m_entry` -/
  entry : Option Nat
  /-- `m_isRegistered` -/
  registered : Bool
  /-- current value of the tolerance expression -/
  tol : Option Int
  /-- `m_thresholds` -/
  thr : Option Thr
  /-- `m_cachedValue`; `some none` is a cached value that is unknown -/
  cached : Option (Option Int)
deriving DecidableEq, Repr

/-- `StateCacheEntryImpl`, `StateCacheEntry.cc:523-534`. `value = none` is a null `m_value`. -/
structure Entry where
  value : Option (Option Int)
  stamp : Nat
  lookups : List Nat
  /-- are `m_lowThreshold` and `m_highThreshold` allocated? -/
  thr : Bool
deriving DecidableEq, Repr

/-- The lookups, the state cache and what the outside has been told. `StateCache.hh`, `StateCacheEntry.hh`. -/
structure Sys where
  /-- `StateCacheImpl::m_cycleCount`, `StateCache.cc:256` -/
  cycle : Nat
  entry : Nat → Entry
  obj : Nat → Obj
  /-- thresholds (high, low) the interface was last given for a state, and not cleared since -/
  iface : Nat → Option (Int × Int)
  /-- lookups whose `publishChange` has been called, latest first -/
  published : List Nat
  /-- states the interface has been asked for (`g_dispatcher->lookupNow`), with the cycle, latest first -/
  queries : List (Nat × Nat)
  /-- a null pointer was dereferenced -/
  crash : Bool

/-- Fixed parameters: the type of each state and the relative tolerance of Real comparisons. `Lookup.cc:568-652`, `StateCacheEntry.cc:392-424`. -/
structure Cfg where
  kind : Nat → Kind
  eps : Int → Int

/-- Replace lookup `i` (assignment to members of a `LookupImpl`, `Lookup.cc:77-107`). -/
def Sys.setObj (s : Sys) (i : Nat) (o : Obj) : Sys := { s with obj := fun j => if j = i then o else s.obj j }
/-- Replace the cache entry of state `st` (assignment to members, `StateCacheEntry.cc:523-534`). -/
def Sys.setEntry (s : Sys) (st : Nat) (e : Entry) : Sys :=
  { s with entry := fun t => if t = st then e else s.entry t }
/-- `Notifier::publishChange`, `Notifier.cc:180-187`: only an active expression notifies. -/
def Sys.publish (s : Sys) (i : Nat) : Sys :=
  if (s.obj i).active then { s with published := i :: s.published } else s

/-- Absolute value of the tolerance, `Lookup.cc:591-592, 619-620`. -/
def absTol (t : Int) : Int := if t < 0 then -t else t

/-- `toleranceChanged`, `Lookup.cc:586-602` (called only with a known tolerance). -/
def toleranceChanged (th : Thr) (t : Int) : Bool := decide (absTol t ≠ th.tol)

/-- `setThresholds`, `Lookup.cc:613-639`, for a known tolerance. -/
def setThresholds (th : Thr) (value : Option Int) (t : Int) : Thr :=
  match value with
  | some base => { low := base - absTol t, high := base + absTol t, tol := absTol t, wasKnown := true }
  | none => { th with wasKnown := false }

/-- `ThresholdCacheImpl<Integer>::thresholdsExceeded`, `Lookup.cc:658-666`, and the Real one, `:674-697`. -/
def exceeded (C : Cfg) (k : Kind) (th : Thr) (value : Option Int) : Bool :=
  match k, value with
  | _, none => th.wasKnown
  | .int, some x => decide (x ≥ th.high) || decide (x ≤ th.low)
  | .real, some x =>
    if !th.wasKnown then true
    else decide (x ≥ th.high) || decide (x ≤ th.low) || decide (th.high - x < C.eps x) || decide (x - th.low < C.eps x)

/-- `getThresholds` of a lookup, `Lookup.cc:336-344, 814-854`: (high, low). -/
def getThresholds (o : Obj) : Option (Int × Int) :=
  if o.onChange && o.active then o.thr.map (fun th => (th.high, th.low)) else none

/-- The loop of `integerUpdateThresholds` / `realUpdateThresholds`, `StateCacheEntry.cc:436-450, 482-496`:
least high, greatest low. -/
def combine : List (Option (Int × Int)) → Option (Int × Int) → Option (Int × Int)
  | [], acc => acc
  | none :: l, acc => combine l acc
  | some (hi, lo) :: l, none => combine l (some (hi, lo))
  | some (hi, lo) :: l, some (h, w) => combine l (some (if hi < h then hi else h, if lo > w then lo else w))

/-- `StateCacheEntryImpl::updateThresholds`, `StateCacheEntry.cc:149-183, 431-516`. -/
def updateThresholds (s : Sys) (st : Nat) : Sys :=
  let e := s.entry st
  match combine (e.lookups.map (fun i => getThresholds (s.obj i))) none with
  | some hl =>
    { s.setEntry st { e with thr := true } with iface := fun t => if t = st then some hl else s.iface t }
  | none =>
    if e.thr then
      { s.setEntry st { e with thr := false } with iface := fun t => if t = st then none else s.iface t }
    else s

/-- `LookupOnChange::updateInternal`, `Lookup.cc:997-1065`: the new system and the Boolean returned. -/
def updateInternal (C : Cfg) (s : Sys) (i : Nat) (valueChanged : Bool) : Sys × Bool :=
  let o := s.obj i
  match o.thr with
  | some th =>
    match o.entry with
    | none => ({ s with crash := true }, false)
    | some st =>
      match o.tol with
      | some t =>
        -- :1009-1013
        let th := if toleranceChanged th t then setThresholds th (o.cached.getD none) t else th
        match (s.entry st).value with
        | none => ({ s with crash := true }, false)
        | some val =>
          if exceeded C (C.kind st) th val then
            -- :1024-1027
            let s := s.setObj i { o with cached := some val, thr := some (setThresholds th val t) }
            (updateThresholds s st, true)
          else (s.setObj i { o with thr := some th }, false)
      | none =>
        -- :1037-1044
        let s := s.setObj i { o with thr := none, cached := none }
        (updateThresholds s st, valueChanged)
  | none =>
    match o.entry, o.tol with
    | some st, some t =>
      match (s.entry st).value with
      | some (some v) =>
        -- :1051-1061
        let s := s.setObj i { o with cached := some (some v), thr := some (setThresholds ⟨0, 0, 0, false⟩ (some v) t) }
        (updateThresholds s st, valueChanged)
      | _ => (s, valueChanged)
    | _, _ => (s, valueChanged)

/-- `valueChanged`, `Lookup.cc:325-328` and `:794-807`. -/
def valueChanged (C : Cfg) (s : Sys) (i : Nat) : Sys :=
  if (s.obj i).onChange then
    if (s.obj i).active then
      let r := updateInternal C s i true
      if r.2 then r.1.publish i else r.1
    else s
  else s.publish i

/-- `StateCacheEntryImpl::notify`, `StateCacheEntry.cc:380-384`. -/
def notifyAll (C : Cfg) (s : Sys) (l : List Nat) : Sys := l.foldl (valueChanged C) s

/-- What the interface (or the application) hands to a `LookupReceiver`. `LookupReceiver.hh:45-100`. -/
inductive Given
  /-- nothing, or a value of a type the entry refuses -/
  | nothing
  /-- a known value: `update` / `updateValue` -/
  | known (v : Int)
  /-- an unknown value of the right type through `updateValue` -/
  | unknown
  /-- `setUnknown()` -/
  | clear
deriving DecidableEq, Repr

/-- `StateCacheEntryImpl::updateValue / update / setUnknown` with `CachedValueImpl::update / setUnknown`:
`StateCacheEntry.cc:197-245`, `CachedValueImpl.cc:395-435, 537-632`.  The timestamp stays as it is when the
value does not change. -/
def give (C : Cfg) (s : Sys) (st : Nat) (g : Given) : Sys :=
  let e := s.entry st
  match g with
  | .nothing => s
  | .known v =>
    if e.value = some (some v) then s
    else notifyAll C (s.setEntry st { e with value := some (some v), stamp := s.cycle }) e.lookups
  | .unknown =>
    let s' := s.setEntry st { e with value := some none, stamp := s.cycle }
    if (e.value.getD none).isSome then notifyAll C s' e.lookups else s'
  | .clear =>
    match e.value with
    | none => s
    | some v =>
      let s' := s.setEntry st { e with value := some none, stamp := s.cycle }
      if v.isSome then notifyAll C s' e.lookups else s'

/-- `ensureRegistered` and `registerLookup`: `Lookup.cc:471-478`, `StateCacheEntry.cc:93-103`.  `g` is what
the interface answers, if it is asked.  (`m_isRegistered` is set after the call; nothing in between reads it.) -/
def ensureRegistered (C : Cfg) (s : Sys) (i st : Nat) (g : Given) : Sys :=
  if (s.obj i).registered then s
  else
    let s := s.setObj i { s.obj i with registered := true }
    let e := s.entry st
    let s := s.setEntry st { e with lookups := e.lookups ++ [i] }
    if e.value = none ∨ e.stamp < s.cycle then
      give C { s with queries := (st, s.cycle) :: s.queries } st g
    else s

/-- `unregister` and `unregisterLookup`: `Lookup.cc:481-488`, `StateCacheEntry.cc:108-145`. -/
def unregister (s : Sys) (i : Nat) : Sys :=
  let o := s.obj i
  if !o.registered then s
  else
    match o.entry with
    | none => { s with crash := true }
    | some st =>
      let s := s.setObj i { o with registered := false }
      let e := s.entry st
      if e.lookups = [] then s
      else
        let ls := e.lookups.erase i
        if ls = [] then s.setEntry st { e with lookups := [], thr := false }
        else if e.thr then updateThresholds (s.setEntry st { e with lookups := ls }) st
        else s.setEntry st { e with lookups := ls }

/-- `invalidateOldState`, `Lookup.cc:492-496, 973-980`. -/
def invalidateOldState (s : Sys) (i : Nat) : Sys :=
  let s := unregister s i
  let o := { s.obj i with entry := none }
  s.setObj i (if o.onChange && o.thr.isSome then { o with thr := none, cached := none } else o)

/-- `handleChangeInternal`, `Lookup.cc:445-468`. -/
def handleChangeInternal (C : Cfg) (s : Sys) (i : Nat) (g : Given) : Sys × Bool :=
  let oldKnown := (s.obj i).stateKnown
  match (s.obj i).name with
  | some st =>
    let moved := oldKnown && decide (st ≠ (s.obj i).cachedState)
    let s := s.setObj i { s.obj i with stateKnown := true }
    let s := if moved then invalidateOldState s i else s
    let s := s.setObj i { s.obj i with cachedState := st, entry := some st }
    (ensureRegistered C s i st g, !oldKnown || moved)
  | none =>
    let s := s.setObj i { s.obj i with stateKnown := false }
    (if oldKnown then invalidateOldState s i else s, oldKnown)

/-- `handleChange`, `Lookup.cc:410-415, 954-959`. -/
def handleChange (C : Cfg) (s : Sys) (i : Nat) (g : Given) : Sys :=
  let r := handleChangeInternal C s i g
  let r := if (r.1.obj i).onChange then updateInternal C r.1 i r.2 else r
  if r.2 then r.1.publish i else r.1

/-- `isKnown`, `Lookup.cc:253-258`. -/
def Sys.isKnown (s : Sys) (i : Nat) : Bool :=
  let o := s.obj i
  match o.active, o.entry with
  | true, some st => match (s.entry st).value with | some (some _) => true | _ => false
  | _, _ => false

/-- `getValue`, `Lookup.cc:278-298, 881-897`. -/
def Sys.value (s : Sys) (i : Nat) : Option Int :=
  let o := s.obj i
  match o.active, o.entry with
  | true, some st =>
    match (s.entry st).value with
    | none => none
    | some v => if o.onChange then o.cached.getD v else v
  | _, _ => none

/-- First part of `handleActivate`, `Lookup.cc:375-383`: compute the state and find its entry. -/
def activated (o : Obj) : Obj :=
  let o := { o with active := true }
  let o := if o.const then o
    else { o with stateKnown := o.name.isSome, cachedState := o.name.getD o.cachedState }
  if o.entry = none ∧ o.stateKnown = true then { o with entry := some o.cachedState } else o

/-- `activate` with `handleActivate`: `Notifier.cc:99-109`, `Lookup.cc:368-386, 921-931`. -/
def activate (C : Cfg) (s : Sys) (i : Nat) (g : Given) : Sys :=
  let o := activated (s.obj i)
  let s := s.setObj i o
  let s := match o.entry with | some st => ensureRegistered C s i st g | none => s
  if o.onChange then
    let s := (updateInternal C s i true).1
    if s.isKnown i then s.publish i else s
  else s

/-- `deactivate` with `handleDeactivate`: `Notifier.cc:116-122`, `Lookup.cc:389-402, 936-946`. -/
def deactivate (s : Sys) (i : Nat) : Sys :=
  let s := s.setObj i { s.obj i with active := false }
  let s := if (s.obj i).stateKnown then unregister s i else s
  let o := s.obj i
  let o := if o.const then o else { o with entry := none }
  s.setObj i (if o.onChange && o.thr.isSome then { o with thr := none, cached := none } else o)

/-- What can happen. The entry points of `Lookup.cc` and `StateCacheEntry.cc` cited at `Sys.step`. -/
inductive Ev
  /-- a lookup is activated; the answer to the query this may cause -/
  | activate (i : Nat) (g : Given)
  | deactivate (i : Nat)
  /-- the state named by a lookup changes -/
  | rename (i : Nat) (name : Option Nat) (g : Given)
  /-- the tolerance of a lookup changes -/
  | retol (i : Nat) (t : Option Int)
  /-- the interface delivers a value -/
  | give (st : Nat) (g : Given)
  /-- the next cycle begins: `incrementCycleCount`, `StateCache.cc:83-86` -/
  | tick
deriving Repr

/-- One event.  An active lookup is not activated again, an inactive one not deactivated (further
activations only count: `Notifier.cc:99-122`), and the name of a constant lookup does not change. -/
def step (C : Cfg) (s : Sys) : Ev → Sys
  | .activate i g => if (s.obj i).active then s else activate C s i g
  | .deactivate i => if (s.obj i).active then deactivate s i else s
  | .rename i n g =>
    if (s.obj i).const then s
    else
      let s := s.setObj i { s.obj i with name := n }
      if (s.obj i).active then handleChange C s i g else s
  | .retol i t =>
    let s := s.setObj i { s.obj i with tol := t }
    if (s.obj i).active ∧ (s.obj i).onChange then handleChange C s i .nothing else s
  | .give st g => Lookup.give C s st g
  | .tick => { s with cycle := s.cycle + 1 }

/-- Lookups just after construction, `Lookup.cc:116-150, 760-772`: a constant one knows its state. -/
def Fresh (o : Obj) : Prop :=
  o.active = false ∧ o.entry = none ∧ o.registered = false ∧ o.thr = none ∧ o.cached = none ∧
  (o.const = true → o.stateKnown = true ∧ o.name = some o.cachedState) ∧ (o.const = false → o.stateKnown = false)

/-- A system with fresh lookups and an empty cache (`StateCache.cc:211-216`: the cycle count starts at 1). -/
structure Init (s : Sys) : Prop where
  cycle : s.cycle = 1
  entry : ∀ st, s.entry st = ⟨none, 0, [], false⟩
  obj : ∀ i, Fresh (s.obj i)
  iface : ∀ st, s.iface st = none
  published : s.published = []
  queries : s.queries = []
  crash : s.crash = false

/-- The systems that can arise. Start: no lookup active, no state cached (`StateCache.cc`). -/
inductive Reach (C : Cfg) : Sys → Prop
  | init {s} : Init s → Reach C s
  | step {s} (e : Ev) : Reach C s → Reach C (step C s e)

end Verif.Lookup
