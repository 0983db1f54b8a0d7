set_option autoImplicit false
/-!
Model of initial values of variables: `UserVariable::handleActivate` and `handleDeactivate`, `/repo/src/expr/UserVariable.cc:213-260`, with the counts of `Notifier.cc:99-131`, and the order in which a node
activates and deactivates its variables, `/repo/src/exec/NodeImpl.cc:1824-1839`.

An initializer is a literal or a variable (`UserVariableFactory.cc:77-90`). Variables are numbers; a value is `none` if unknown. Simplified: one type of values (no conversion of integers to reals, no arrays); the
depth of the recursion is bounded by a number, whose exhaustion is `none`, as is a failed assertion; listeners are not modelled here (C49, C50).
-/
namespace Verif.Init

/-- The initializer of a variable: none, a literal (which may be unknown), a variable. `parseNode.cc:1068-1086`, `UserVariable.hh`. -/
inductive Initializer (α : Type)
  | absent
  | lit (v : Option α)
  | var (y : Nat)
deriving Repr

/-- `m_activeCount`, and `m_value` with `m_known`, of every variable. `UserVariable.hh`, `Notifier.hh`. -/
structure St (α : Type) where
  count : Nat → Nat
  val : Nat → Option α

variable {α : Type}

/-- `++m_activeCount`, `--m_activeCount`. `Notifier.cc:102, 121`. -/
def St.inc (s : St α) (x : Nat) : St α := { s with count := fun z => if z = x then s.count z + 1 else s.count z }
@[inherit_doc St.inc] def St.dec (s : St α) (x : Nat) : St α := { s with count := fun z => if z = x then s.count z - 1 else s.count z }
/-- `m_value`, `m_known`. `UserVariable.cc:219-226`. -/
def St.set (s : St α) (x : Nat) (v : Option α) : St α := { s with val := fun z => if z = x then v else s.val z }
/-- `getValue`: unknown if not active. `UserVariable.cc:184-192`. -/
def St.read (s : St α) (x : Nat) : Option α := if 0 < s.count x then s.val x else none

/-- `activate`, `Notifier.cc:99-109`, with `handleActivate`, `UserVariable.cc:213-247`. -/
def activate (init : Nat → Initializer α) : Nat → St α → Nat → Option (St α)
  | 0, _, _ => none
  | k + 1, s, x =>
    if s.count x = 0 then
      match init x with
      | .absent => some ((s.inc x).set x none)
      | .lit v => some ((s.inc x).set x v)
      | .var y => (activate init k (s.inc x) y).map fun s => s.set x (s.read y)
    else some (s.inc x)

/-- `deactivate`, `Notifier.cc:117-124`, with `handleDeactivate`, `UserVariable.cc:249-260`. -/
def deactivate (init : Nat → Initializer α) : Nat → St α → Nat → Option (St α)
  | 0, _, _ => none
  | k + 1, s, x =>
    if s.count x = 0 then none
    else
      let s := s.dec x
      if s.count x = 0 then
        match init x with
        | .var y => deactivate init k s y
        | _ => some s
      else some s

/-- `activateLocalVariables`, `NodeImpl.cc:1824-1830`. -/
def activateAll (init : Nat → Initializer α) (k : Nat) (s : St α) : List Nat → Option (St α)
  | [] => some s
  | x :: r => (activate init k s x).bind fun s => activateAll init k s r

/-- `deactivateLocalVariables`, `NodeImpl.cc:1832-1838`. -/
def deactivateAll (init : Nat → Initializer α) (k : Nat) (s : St α) : List Nat → Option (St α)
  | [] => some s
  | x :: r => (deactivate init k s x).bind fun s => deactivateAll init k s r

end Verif.Init
