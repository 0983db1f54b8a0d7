/-
Model of the change notification network of expressions: `/repo/src/expr/{Listenable.hh,Notifier.cc,Propagator.cc}`
and the members of expression classes it calls.

What is modelled: any acyclic graph of expressions (sub-expressions may be shared), adding and removing
listeners, activation counts, and who is called when an expression publishes a change.

Simplifications.  The recursive traversal of `Propagator::addListener` is flattened: the list of propagation
sources it meets is computed first (`frontier`), then each gets the listener, in the same order.  What a
lookup does when a sub-expression changes is the subject of `Verif/Lookup`; here `relay` says whether it
publishes.  Overflow of the activation count (`Notifier.cc:106-108`) is ignored.  Values are not modelled.
-/
namespace Verif.Notify

/-- The classes of expressions, by what they do with listeners and activation. (files of `/repo/src/expr`, `intfc`, `exec` named at each.) -/
inductive Kind
  /-- constants: all members of `Listenable` do nothing (`Listenable.hh:70-160`) -/
  | inert
  /-- node state, outcome and failure: `NodeVariables.cc:59-75, 113-129, 163-179`; the node is the target -/
  | proxy (target : Nat)
  /-- a node: a `Notifier` that is always active and a propagation source (`NodeImpl.hh:160-193`) -/
  | node
  /-- variables, time points, command handles: a `Notifier` and a source (`UserVariable.cc:142-150`,
  `ArrayVariable.cc:87-90`, `SimpleBooleanVariable.cc:54`, `NodeTimepointValue.cc:59`,
  `CommandHandleVariable.cc:54`); `acts` are the initializer and the size, activated with it -/
  | leaf (acts : List Nat)
  /-- functions, array references, aliases, node and command functions: a `Propagator`, not a source
  (`Function.cc:72-75`, `Operator.cc:51-54`, `ArrayReference.cc:202-218`, `Alias.cc:171-174`).  An alias
  activates nothing: it has no `handleActivate` -/
  | func (subs acts : List Nat)
  /-- lookups: a `Propagator` that is a source (`Lookup.cc:175-178, 356-386, 964-969`), with a state name,
  parameters and, for `LookupOnChange`, a tolerance -/
  | lookup (name : Nat) (params : List Nat) (tol : Option Nat)
deriving Repr, DecidableEq

/-- `isPropagationSource()` of these classes. `Listenable.hh:155-158`, `Operator.cc:51`, `Function.cc:72-75`, `Lookup.cc:175`, `NodeImpl.hh:190`. -/
def Kind.source : Kind → Bool
  | .node | .leaf _ | .lookup _ _ _ => true
  | _ => false

/-- The sub-expressions `doSubexprs` visits. `Propagator.cc:52-110` and the `doSubexprs` members of the classes. -/
def Kind.subs : Kind → List Nat
  | .func s _ => s
  | .lookup n ps t => n :: ps ++ t.toList
  | .proxy t => [t]
  | _ => []

/-- The expressions `handleActivate` activates and `handleDeactivate` deactivates
(`Function.cc:230-241`, `ArrayReference.cc:208-218`, `UserVariable.cc:236-277`, `ArrayVariable.cc:113-174`,
`Lookup.cc:368-402`). -/
def Kind.acts : Kind → List Nat
  | .func _ a | .leaf a => a
  | .lookup n ps t => n :: ps ++ t.toList
  | _ => []

/-- Does `activate()` count (`Notifier.cc:99-109`), or do nothing (`Listenable.hh:95-105`, `NodeImpl.hh:175-183`)? -/
def Kind.counts : Kind → Bool
  | .func _ _ | .lookup _ _ _ | .leaf _ => true
  | _ => false

/-- A graph of expressions, numbered so that sub-expressions come before the expressions that use them
(expressions are built from their operands). `Expression.hh` -/
structure Graph where
  size : Nat
  kind : Nat → Kind
  subs_lt : ∀ e c, c ∈ (kind e).subs → c < e
  acts_lt : ∀ e c, c ∈ (kind e).acts → c < e
  /-- what the classes of `NodeVariables.cc` stand for is a node -/
  proxy_node : ∀ e t, kind e = .proxy t → kind t = .node
  /-- what does not exist does nothing -/
  outside : ∀ e, size ≤ e → kind e = .inert

/-- An `ExpressionListener *`: an expression (a `Propagator`) or something else, i.e. a node with a condition. `ExpressionListener.hh`, `Propagator.hh`. -/
inductive Listener
  | expr (p : Nat)
  | ext (n : Nat)
deriving DecidableEq, Repr

/-- The state of the network. `m_listeners` and `m_activeCount` of `Notifier.hh`. -/
structure Net where
  /-- `m_outgoingListeners` -/
  listeners : Nat → List Listener
  /-- `m_activeCount` -/
  count : Nat → Nat
  /-- the assertion of `Notifier.cc:118-119` failed -/
  fault : Bool

/-- Where the helper of `Propagator::addListener` and `removeListener` ends up: `Propagator.cc:63-75, 84-93`. -/
def Graph.frontier (G : Graph) (e : Nat) : List Nat :=
  (G.kind e).subs.attach.flatMap fun ⟨c, _⟩ => if (G.kind c).source then [c] else G.frontier c
termination_by e
decreasing_by exact G.subs_lt e c (by assumption)

theorem Graph.frontier_lt (G : Graph) (e : Nat) : ∀ c ∈ G.frontier e, c < e := by
  induction e using Nat.strongRecOn with
  | _ e ih =>
    intro c hc
    rw [Graph.frontier] at hc
    obtain ⟨⟨d, hd⟩, _, hm⟩ := List.mem_flatMap.1 hc
    have hde := G.subs_lt e d hd
    dsimp only at hm
    split at hm
    · rw [List.mem_singleton.1 hm]; exact hde
    · exact Nat.lt_trans (ih d hde c hm) hde

/-- The expressions a propagator adds itself to when it gets its first listener, and removes itself from when
it loses the last: the sources below it (`Propagator.cc:58-96`); a lookup also listens to its name,
parameters and tolerance themselves (`Lookup.cc:190-211, 861-875`, `ExprVec.cc:116-136, 252-266`). -/
def Graph.hosts (G : Graph) (e : Nat) : List Nat :=
  match G.kind e with
  | .lookup n ps t => t.toList ++ n :: ps ++ G.frontier e
  | _ => G.frontier e

theorem Graph.hosts_lt (G : Graph) (e : Nat) : ∀ c ∈ G.hosts e, c < e := by
  intro c hc
  unfold Graph.hosts at hc
  split at hc
  · next n ps t hk =>
    rcases List.mem_append.1 hc with h | h
    · refine G.subs_lt e c ?_
      rw [hk]
      simp only [Kind.subs, List.mem_append, List.mem_cons] at h ⊢
      rcases h with h | h | h
      · exact .inr h
      · exact .inl (.inl h)
      · exact .inl (.inr h)
    · exact G.frontier_lt e c h
  · exact G.frontier_lt e c hc

/-- `Notifier::addListener`, `Notifier.cc:129-147`. -/
def Net.note (s : Net) (e : Nat) (l : Listener) : Net :=
  if l ∈ s.listeners e then s
  else { s with listeners := fun i => if i = e then s.listeners e ++ [l] else s.listeners i }

/-- `Notifier::removeListener`, `Notifier.cc:149-180`. -/
def Net.forget (s : Net) (e : Nat) (l : Listener) : Net :=
  { s with listeners := fun i => if i = e then (s.listeners e).erase l else s.listeners i }

/-- `addListener` of each class: `Propagator.cc:58-78`, `Notifier.cc:129-147`, `NodeVariables.cc:65-68`,
`Listenable.hh:74-77`. -/
def Graph.add (G : Graph) (e : Nat) (l : Listener) (s : Net) : Net :=
  match _h : G.kind e with
  | .inert => s
  | .proxy t => G.add t l s
  | .node | .leaf _ => s.note e l
  | .func _ _ | .lookup _ _ _ =>
    let s := if s.listeners e = [] then
        (G.hosts e).attach.foldl (fun s c => G.add c.1 (.expr e) s) s
      else s
    s.note e l
termination_by e
decreasing_by
  · exact G.subs_lt e t (by rw [_h]; simp [Kind.subs])
  · exact G.hosts_lt e c.1 c.2
  · exact G.hosts_lt e c.1 c.2

/-- `removeListener` of each class: `Propagator.cc:80-96`, `Notifier.cc:149-180`, `NodeVariables.cc:70-73`,
`Listenable.hh:82-85`; for lookups `Lookup.cc:202-211, 870-875`, which then remove themselves from their
parameters — with more than four parameters `GeneralExprVec::removeListener` (`ExprVec.cc:260-266`, chosen by
`makeExprVec`, `:297-319`) calls `addListener` instead.  (The second test of `hasListeners()` there is
dropped: nothing in between touches the list of `e`.) -/
def Graph.remove (G : Graph) (e : Nat) (l : Listener) (s : Net) : Net :=
  match _h : G.kind e with
  | .inert => s
  | .proxy t => G.remove t l s
  | .node | .leaf _ => s.forget e l
  | .func _ _ =>
    let s := s.forget e l
    if s.listeners e = [] then
      (G.frontier e).attach.foldl (fun s c => G.remove c.1 (.expr e) s) s
    else s
  | .lookup n ps t =>
    let s := s.forget e l
    if s.listeners e = [] then
      let s := (G.frontier e).attach.foldl (fun s c => G.remove c.1 (.expr e) s) s
      let s := if ps.length ≤ 4 then ps.attach.foldl (fun s c => G.remove c.1 (.expr e) s) s
        else ps.foldl (fun s c => G.add c (.expr e) s) s
      let s := G.remove n (.expr e) s
      t.toList.attach.foldl (fun s c => G.remove c.1 (.expr e) s) s
    else s
termination_by e
decreasing_by
  · exact G.subs_lt e t (by rw [_h]; simp [Kind.subs])
  · exact G.frontier_lt e c.1 c.2
  · exact G.frontier_lt e c.1 c.2
  · exact G.subs_lt e c.1 (by rw [_h]; simp [Kind.subs, c.2])
  · exact G.subs_lt e n (by rw [_h]; simp [Kind.subs])
  · exact G.subs_lt e c.1 (by rw [_h]; simp only [Kind.subs, List.mem_append]; exact .inr c.2)

/-- Set the activation count (`Notifier.cc:101, 120`). -/
def Net.setCount (s : Net) (e n : Nat) : Net := { s with count := fun i => if i = e then n else s.count i }

/-- `activate()`: `Notifier.cc:99-109` with the `handleActivate` of each class. -/
def Graph.activate (G : Graph) (e : Nat) (s : Net) : Net :=
  if (G.kind e).counts then
    let s' := s.setCount e (s.count e + 1)
    if s.count e = 0 then (G.kind e).acts.attach.foldl (fun s c => G.activate c.1 s) s' else s'
  else s
termination_by e
decreasing_by exact G.acts_lt e c.1 c.2

/-- `deactivate()`: `Notifier.cc:116-122` with the `handleDeactivate` of each class. -/
def Graph.deactivate (G : Graph) (e : Nat) (s : Net) : Net :=
  if (G.kind e).counts then
    if s.count e = 0 then { s with fault := true }
    else
      let s' := s.setCount e (s.count e - 1)
      if s'.count e = 0 then (G.kind e).acts.attach.foldl (fun s c => G.deactivate c.1 s) s' else s'
  else s
termination_by e
decreasing_by exact G.acts_lt e c.1 c.2

/-- `isActive()`: `Notifier.cc:89-92`, `Listenable.hh:111-114`, `NodeImpl.hh:165-170`. -/
def Graph.active (G : Graph) (s : Net) (e : Nat) : Bool := if (G.kind e).counts then decide (0 < s.count e) else true

/-- Does `handleChange()` publish (`Propagator.cc:104-107`)?  A lookup decides for itself (`Lookup.cc:410-415`). -/
def Graph.relays (G : Graph) (relay : Nat → Bool) (p : Nat) : Bool :=
  match G.kind p with
  | .lookup _ _ _ => relay p
  | _ => true

/-- The outside listeners called, in order, when `e` publishes: `Notifier::publishChange`, `Notifier.cc:182-189`,
and `Propagator::notifyChanged`, `Propagator.cc:98-107`.  The first argument bounds the depth. -/
def Graph.told (G : Graph) (relay : Nat → Bool) (s : Net) : Nat → Nat → List Nat
  | 0, _ => []
  | k + 1, e =>
    if G.active s e then
      (s.listeners e).flatMap fun
        | .ext n => [n]
        | .expr p => if G.active s p && G.relays relay p then G.told relay s k p else []
    else []

/-- As above; listeners of an expression come after it, so this depth is enough. `Notifier.cc:180-187`. -/
def Graph.publish (G : Graph) (relay : Nat → Bool) (s : Net) (e : Nat) : List Nat := G.told relay s (G.size - e + 1) e

/-- What is done to the network from outside: nodes listen to and activate their conditions
(`NodeImpl.cc:228, 364-381, 440-455, 1700-1840`), assignments and commands their operands. -/
inductive Ev
  | listen (e n : Nat)
  | unlisten (e n : Nat)
  | activate (e : Nat)
  | deactivate (e : Nat)
deriving Repr, DecidableEq

/-- One event. The entry points are `Listenable.hh:70-160`. -/
def Graph.step (G : Graph) (s : Net) : Ev → Net
  | .listen e n => G.add e (.ext n) s
  | .unlisten e n => G.remove e (.ext n) s
  | .activate e => G.activate e s
  | .deactivate e => G.deactivate e s

/-- The network before anything is done: `Notifier.cc:46-49`. -/
def start : Net := ⟨fun _ => [], fun _ => 0, false⟩

/-- A history. (Any sequence of the calls of `Listenable.hh:70-160`.) -/
def Graph.run (G : Graph) (es : List Ev) : Net := es.foldl G.step start

end Verif.Notify
