/-
Model of the resource arbiter `/repo/src/intfc/ResourceArbiterInterface.cc:50-666`.

Amounts are `double`s in the code. Every finite double is an integer multiple of 2⁻¹⁰⁷⁴; the model counts in that
unit (type `Int`) and adds exactly, i.e. rounding of `+`/`-` and infinities are not modelled.
Not modelled: parsing of the hierarchy file (`:389-504`), debug printing.
-/
namespace Verif.Arbiter

/-- Resource name. `ResourceArbiterInterface.cc:49-96`. -/
abbrev Name := String
/-- Identity of a command (its address). `ResourceArbiterInterface.cc:506-660`. -/
abbrev Cmd := Nat

/-- `1.0` in model units. `ResourceArbiterInterface.cc:660-666`. -/
def one : Int := ((2 ^ 1074 : Nat) : Int)

/-- `ChildResourceNode`, `:49-96`: a resource with an amount and a release flag. -/
structure Res where
  name : Name
  weight : Int
  release : Bool
deriving DecidableEq, Repr

/-- `ResourceNode`, `:126-163`. -/
structure ResNode where
  children : List Res
  max : Int
deriving DecidableEq, Repr

/-- `ResourceHierarchyMap`, `:168`. -/
abbrev Hierarchy := List (Name × ResNode)

/-- `resourceHierarchy.find`, `ResourceArbiterInterface.cc:272, 663`. -/
def Hierarchy.find (h : Hierarchy) (n : Name) : Option ResNode := h.lookup n

/-- `ResourceValue`, `CommandImpl.hh:46-61`: one resource request of a command. -/
structure Request where
  name : Name
  upperBound : Int
  priority : Int
  release : Bool
deriving DecidableEq, Repr

/-- `determineChildResources`, `:266-285`. `fuel` is the recursion depth available: `none` = deeper than that
(a cyclic hierarchy recurses for ever). -/
def childResources (h : Hierarchy) : Nat → Name → Bool → Option (List Res)
  | 0, _, _ => none
  | fuel + 1, name, release =>
    match h.find name with
    | none => some []
    | some node =>
      node.children.foldlM (fun acc child => do
        let sub ← childResources h fuel child.name release
        pure (acc ++ { name := child.name, weight := child.weight, release := release } :: sub)) []

/-- Insertion into a `ResourceSet` (`std::set` ordered by name only, `:102-110`): no effect if an entry with that name is
present. The model keeps insertion order instead of name order; names are unique and each is processed
independently of the others, so the order is not observable. -/
def setInsert (s : List Res) (r : Res) : List Res :=
  if s.any (fun x => x.name == r.name) then s else s ++ [r]

/-- `determineAllChildResources`, `:294-321`. The `else if` branch inserts an element already present: no effect. -/
def addRequest (fuel : Nat) (h : Hierarchy) (req : Request) (needed : List Res) : Option (List Res) := do
  let kids ← childResources h fuel req.name req.release
  let flattened := { name := req.name, weight := req.upperBound, release := req.release } :: kids
  pure (flattened.foldl (fun s fres =>
    if s.any (fun x => x.name == fres.name) = false then setInsert s fres
    else if fres.name = req.name then setInsert s fres
    else s) needed)

/-- `CommandPriorityEntry`, `:173-201`. -/
structure Entry where
  cmd : Cmd
  resources : List Res
  priority : Int
deriving DecidableEq, Repr

/-- The loop over the requests of one command, `:353-354`. -/
def allResources (fuel : Nat) (h : Hierarchy) (reqs : List Request) : Option (List Res) :=
  reqs.foldlM (fun s r => addRequest fuel h r s) []

/-- The partition loop of `partitionCommands`, `:338-356`: commands without requests are accepted at once. -/
def partition (fuel : Nat) (h : Hierarchy) : List (Cmd × List Request) → Option (List Cmd × List Entry)
  | [] => some ([], [])
  | (c, reqs) :: rest => do
    let (acc, es) ← partition fuel h rest
    match reqs with
    | [] => pure (c :: acc, es)
    | r :: _ => do
      let rs ← allResources fuel h reqs
      pure (acc, { cmd := c, resources := rs, priority := r.priority } :: es)

/-- `std::stable_sort` by priority, `:207-210, 359-361` (trusted: the library sorts stably). -/
def sortEntries (es : List Entry) : List Entry :=
  es.mergeSort (fun a b => decide (a.priority ≤ b.priority))

/-- `m_allocated` (`:373`, an absent name and a name mapped to 0.0 are read alike) and `m_cmdResMap` (`:376`). -/
structure State where
  allocated : Name → Int
  running : List (Cmd × List Res)

/-- A freshly constructed arbiter, `:381`. -/
def State.init : State := ⟨fun _ => 0, []⟩

/-- `m_cmdResMap[cmd] = requests` on a `std::map`: replaces an existing entry. `ResourceArbiterInterface.cc:506-660`. -/
def setRunning (m : List (Cmd × List Res)) (c : Cmd) (rs : List Res) : List (Cmd × List Res) :=
  (c, rs) :: m.filter (fun p => p.1 != c)

/-- `maxConsumableResourceValue`, `:661-666`: an unlisted resource has 1.0. -/
def maxValue (h : Hierarchy) (n : Name) : Int :=
  match h.find n with
  | some node => node.max
  | none => one

/-- `ResourceEstimate`, `:220-255`. -/
structure Est where
  renewable : Int
  consumable : Int

/-- `EstimateMap`, `:259`. The preparation loop `:589-600` gives every requested resource the currently allocated
amount; the model does so for every name. -/
abbrev Ests := Name → Est

/-- The inner loop `:611-640`: `none` = `invalid`. -/
def tryRequests (h : Hierarchy) : List Res → Ests → Option Ests
  | [], e => some e
  | r :: rs, e =>
    let est := e r.name
    let est := if r.weight < 0 then { est with renewable := est.renewable + r.weight }
      else { est with consumable := est.consumable + r.weight }
    let max := maxValue h r.name
    if est.renewable < 0 || est.renewable > max then none
    else if est.consumable < 0 || est.consumable > max then none
    else tryRequests h rs (fun n => if n = r.name then est else e n)

/-- `m_allocated[res.name] += res.weight` for all requests, `:655-656`. -/
def allocate (rs : List Res) (a : Name → Int) : Name → Int :=
  rs.foldl (fun a r => fun n => if n = r.name then a n + r.weight else a n) a

/-- The main loop of `optimalResourceArbitration`, `:602-658`. Returns state, accepted and rejected commands. -/
def arbitrateLoop (h : Hierarchy) : List Entry → Ests → State → State × List Cmd × List Cmd
  | [], _, s => (s, [], [])
  | e :: es, est, s =>
    match tryRequests h e.resources est with
    | none =>
      let (s', acc, rej) := arbitrateLoop h es est s
      (s', acc, e.cmd :: rej)
    | some est' =>
      let s := { allocated := allocate e.resources s.allocated,
                 running := setRunning s.running e.cmd e.resources }
      let (s', acc, rej) := arbitrateLoop h es est' s
      (s', e.cmd :: acc, rej)

/-- `arbitrateCommands`, `:511-533`: returns the new state, the accepted and the rejected commands in order. -/
def arbitrate (fuel : Nat) (h : Hierarchy) (s : State) (cmds : List (Cmd × List Request)) :
    Option (State × List Cmd × List Cmd) := do
  let (free, es) ← partition fuel h cmds
  let (s', acc, rej) := arbitrateLoop h (sortEntries es) (fun n => ⟨s.allocated n, s.allocated n⟩) s
  pure (s', free ++ acc, rej)

/-- `releaseResourcesForCommand`, `:537-566`. -/
def release (s : State) (c : Cmd) : State :=
  match s.running.lookup c with
  | none => s
  | some rs =>
    { allocated := rs.foldl (fun a r => if r.release then (fun n => if n = r.name then a n - r.weight else a n) else a) s.allocated,
      running := s.running.filter (fun p => p.1 != c) }

end Verif.Arbiter
