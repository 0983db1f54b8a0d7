import Verif.Value.Basic

/-!
Model of plan variables: `/repo/src/expr/UserVariable.cc` (scalars), `/repo/src/expr/ArrayVariable.cc` (arrays),
`/repo/src/expr/ArrayReference.cc` (elements as targets of assignments) and `/repo/src/exec/Assignment.cc`.

Simplifications.  `value != m_value` is inequality of the values (for reals the code uses IEEE comparison, by which
NaN differs from itself and 0.0 equals -0.0).  A value given to `setValue` is of the
variable's type, or `none` if it is unknown; for values of another type see `Verif/Assign/Model.lean`.  Each operation returns whether listeners are called: `publishChange()` does so only
while the variable is active (`Notifier.cc:180-187`).  What is passed to `activate` is what the initializer, the size and so on
evaluate to then.  A plan error thrown by `checkPlanError` (and dereferencing a null pointer) is `none`.
-/
namespace Verif.Var
open Verif.Value (Arr)

/-! ## Scalars -/

/-- `UserVariable<T>`: the members `m_value`, `m_known`, `m_savedValue`, `m_savedKnown`, and the activation count. `UserVariable.hh:160-185`. -/
structure Scalar (α : Type) where
  value : α
  known : Bool
  saved : α
  savedKnown : Bool
  count : Nat
deriving DecidableEq, Repr

variable {α : Type} [DecidableEq α]

/-- The constructors, `UserVariable.cc:54-122`.  Except for strings `m_value` and `m_savedValue` are left uninitialized:
`x` and `y` are what happens to be in memory. -/
def Scalar.new (x y : α) : Scalar α := ⟨x, false, y, false, 0⟩

/-- `isActive`, `Notifier.cc:89-92`. -/
def Scalar.active (s : Scalar α) : Bool := decide (0 < s.count)

/-- `getValue`, `UserVariable.cc:193-219`. -/
def Scalar.get (s : Scalar α) : Option α := if s.active then (if s.known then some s.value else none) else none

/-- `setValueImpl`, `UserVariable.cc:324-341`. -/
def Scalar.setImpl (s : Scalar α) (v : α) : Scalar α × Bool :=
  ({ s with value := v, known := true }, (!s.known || decide (v ≠ s.value)) && s.active)

/-- `setUnknown`, `UserVariable.cc:343-358`. -/
def Scalar.setUnknown (s : Scalar α) : Scalar α × Bool := ({ s with known := false }, s.known && s.active)

/-- `setValue`, `UserVariable.cc:286-322`. -/
def Scalar.set (s : Scalar α) (v : Option α) : Scalar α × Bool :=
  match v with
  | some x => s.setImpl x
  | none => s.setUnknown

/-- `activate`, `Notifier.cc:99-109`, with `handleActivate`, `UserVariable.cc:230-260`.  The argument is `none` without an
initializer, `some none` if the initializer is unknown. -/
def Scalar.activate (s : Scalar α) (init : Option (Option α)) : Scalar α × Bool :=
  let t := { s with count := s.count + 1 }
  if s.count = 0 then
    match init with
    | some (some v) => ({ t with savedKnown := false, value := v, known := true }, true)
    | _ => ({ t with savedKnown := false, known := false }, false)
  else (t, false)

/-- `deactivate`, `Notifier.cc:116-122`.  (The assertion there is the subject of C49.) -/
def Scalar.deactivate (s : Scalar α) : Scalar α × Bool := ({ s with count := s.count - 1 }, false)

/-- `saveCurrentValue`, `UserVariable.cc:360-371`. -/
def Scalar.save (s : Scalar α) : Scalar α × Bool := ({ s with saved := s.value, savedKnown := s.known }, false)

/-- `restoreSavedValue`, `UserVariable.cc:374-391`. -/
def Scalar.restore (s : Scalar α) : Scalar α × Bool :=
  ({ s with value := s.saved, known := s.savedKnown },
    (decide (s.known ≠ s.savedKnown) || decide (s.value ≠ s.saved)) && s.active)

/-- `getSavedValue`, `UserVariable.cc:393-402`: a known value, whatever `m_savedKnown`. -/
def Scalar.getSaved (s : Scalar α) : Option α := some s.saved

/-- The operations on variables used by the executive. `UserVariable.cc:140-440`. -/
inductive Op (α : Type)
  | activate (init : Option (Option α))
  | deactivate
  | set (v : Option α)
  | setUnknown
  | save
  | restore
deriving Repr

/-- One of them. `UserVariable.cc:140-440`. -/
def Scalar.step (s : Scalar α) : Op α → Scalar α × Bool
  | .activate i => s.activate i
  | .deactivate => s.deactivate
  | .set v => s.set v
  | .setUnknown => s.setUnknown
  | .save => s.save
  | .restore => s.restore

/-- A history. (Any sequence of calls.) `UserVariable.cc:140-440`. -/
def Scalar.run (s : Scalar α) (os : List (Op α)) : Scalar α := os.foldl (fun s o => (s.step o).1) s

/-! ## Arrays -/

/-- `ArrayVariableImpl<T>`: `m_size` (is there one), `m_maxSize`, `m_value`, `m_known`, `m_savedValue`, `m_savedKnown`, and the
activation count.  (`m_sizeIsConstant`, which saves evaluating a constant size again, is dropped.) `ArrayVariable.hh:210-240`. -/
structure ArrVar (α : Type) where
  hasSize : Bool
  maxSize : Nat
  value : Option (Arr α)
  known : Bool
  saved : Option (Arr α)
  savedKnown : Bool
  count : Nat
deriving DecidableEq, Repr

/-- The constructors, `ArrayVariable.cc:40-76`. -/
def ArrVar.new (hasSize : Bool) : ArrVar α := ⟨hasSize, 0, none, false, none, false, 0⟩

/-- `isActive`, `Notifier.cc:89-92`. -/
def ArrVar.active (s : ArrVar α) : Bool := decide (0 < s.count)

/-- `getValuePointer`, `ArrayVariable.cc:293-301, 523-549`. -/
def ArrVar.get (s : ArrVar α) : Option (Arr α) := if s.active && s.known then s.value else none

/-- `setValueImpl`, `ArrayVariable.cc:593-692`.  `d` is the content of a new element. -/
def ArrVar.setImpl (d : α) (s : ArrVar α) (a : Arr α) : Option (ArrVar α × Bool) :=
  if s.hasSize && decide (s.maxSize < a.size) then none
  else
    let (w, changed) := match s.value with
      | some w => if a ≠ w then (a, true) else (w, !s.known)
      | none => (a, true)
    let w := if a.size < s.maxSize then w.resize d s.maxSize else w
    some ({ s with value := some w, known := true }, changed && s.active)

/-- `setUnknown`, `ArrayVariable.cc:186-192`. -/
def ArrVar.setUnknown (s : ArrVar α) : ArrVar α × Bool := ({ s with known := false }, s.known && s.active)

/-- `setValue`, `ArrayVariable.cc:232-248`. -/
def ArrVar.set (d : α) (s : ArrVar α) (v : Option (Arr α)) : Option (ArrVar α × Bool) :=
  match v with
  | some a => s.setImpl d a
  | none => some s.setUnknown

/-- The first part of `handleActivate`, `ArrayVariable.cc:117-130`: evaluate the size. -/
def ArrVar.evalSize (s : ArrVar α) (size : Option Int) : Option (ArrVar α) :=
  if s.hasSize then
    match size with
    | some n => if n < 0 then none else some { s with maxSize := n.toNat }
    | none => some s
  else some s

/-- `activate`, `Notifier.cc:99-109`, with `handleActivate`, `ArrayVariable.cc:114-169`.  `init` is `none` without an initializer,
`some none` if it is unknown. -/
def ArrVar.activate (d : α) (s : ArrVar α) (size : Option Int) (init : Option (Option (Arr α))) : Option (ArrVar α × Bool) :=
  let t := { s with count := s.count + 1 }
  if s.count = 0 then
    match t.evalSize size with
    | none => none
    | some t =>
      match init with
      | some (some a) =>
        if t.hasSize && decide (t.maxSize < a.size) then none else { t with known := false }.setImpl d a
      | some none => some ({ t with known := false }, false)
      | none =>
        if t.hasSize && decide (0 < t.maxSize) then
          let w := match t.value with
            | some w => if w.reset.size < t.maxSize then w.reset.resize d t.maxSize else w.reset
            | none => Arr.ofSize d t.maxSize
          some ({ t with value := some w, known := true }, true)
        else some ({ t with known := false }, false)
  else some (t, false)

/-- `deactivate`, `Notifier.cc:116-122`. -/
def ArrVar.deactivate (s : ArrVar α) : ArrVar α × Bool := ({ s with count := s.count - 1 }, false)

/-- `saveCurrentValue`, `ArrayVariable.cc:194-203`. -/
def ArrVar.save (s : ArrVar α) : ArrVar α × Bool :=
  ({ s with savedKnown := s.known, saved := if s.known then s.value else s.saved }, false)

/-- `restoreSavedValue`, `ArrayVariable.cc:695-742`: the contents are put back only if both values are known. -/
def ArrVar.restore (s : ArrVar α) : ArrVar α × Bool :=
  if s.known && s.savedKnown && decide (s.value ≠ s.saved) then
    ({ s with value := s.saved, known := true }, s.active)
  else ({ s with known := s.savedKnown }, decide (s.known ≠ s.savedKnown) && s.active)

/-- `getSavedValue`, `ArrayVariable.cc:205-210`. -/
def ArrVar.getSaved (s : ArrVar α) : Option (Arr α) := s.saved

/-- `setElement`, `ArrayVariable.cc:744-807`.  (Assigning beyond the end changes nothing but is published.) -/
def ArrVar.setElement (s : ArrVar α) (i : Nat) (v : Option α) : Option (ArrVar α × Bool) :=
  match s.value with
  | none => none
  | some w =>
    match v, w.getElement i with
    | some x, some y => if x ≠ y then some ({ s with value := some (w.setElement i x) }, s.active) else some (s, false)
    | some x, none => some ({ s with value := some (w.setElement i x) }, s.active)
    | none, some _ => match w.setElementUnknown i with
      | some w' => some ({ s with value := some w' }, s.active)
      | none => none
    | none, none => some (s, false)

/-- `setElementUnknown`, `ArrayVariable.cc:286-291`: nothing is published. -/
def ArrVar.setElementUnknown (s : ArrVar α) (i : Nat) : Option (ArrVar α × Bool) :=
  if s.known then
    match s.value with
    | none => none
    | some w => match w.setElementUnknown i with
      | some w' => some ({ s with value := some w' }, false)
      | none => none
  else some (s, false)

/-- The operations on array variables. `ArrayVariable.cc:87-745`. -/
inductive ArrOp (α : Type)
  | activate (size : Option Int) (init : Option (Option (Arr α)))
  | deactivate
  | set (v : Option (Arr α))
  | setUnknown
  | setElement (i : Nat) (v : Option α)
  | setElementUnknown (i : Nat)
  | save
  | restore
deriving Repr

/-- One of them. `ArrayVariable.cc:87-745`. -/
def ArrVar.step (d : α) (s : ArrVar α) : ArrOp α → Option (ArrVar α × Bool)
  | .activate n i => s.activate d n i
  | .deactivate => some s.deactivate
  | .set v => s.set d v
  | .setUnknown => some s.setUnknown
  | .setElement i v => s.setElement i v
  | .setElementUnknown i => s.setElementUnknown i
  | .save => some s.save
  | .restore => some s.restore

/-- A history, up to the first plan error. `ArrayVariable.cc:87-745`. -/
def ArrVar.run (d : α) : ArrVar α → List (ArrOp α) → Option (ArrVar α)
  | s, [] => some s
  | s, o :: os => match s.step d o with
    | some (s', _) => ArrVar.run d s' os
    | none => none

/-! ## Elements -/

/-- `MutableArrayReference`: `m_savedValue`, `m_saved` (`ArrayReference.cc:224-233`).  The array and the index are kept outside. -/
structure Ref (α : Type) where
  savedValue : Option α
  saved : Bool
deriving DecidableEq, Repr

/-- `mutableSelfCheck`, `ArrayReference.cc:235-248`: `none` is a plan error, `some none` false, `some (some i)` the index. -/
def ArrVar.check (s : ArrVar α) (ix : Option Int) : Option (Option Nat) :=
  if s.active && s.known then
    match ix with
    | none => some none
    | some i => if i < 0 then none else some (some i.toNat)
  else some none

/-- `setValue`, `ArrayReference.cc:250-256`. -/
def Ref.set (s : ArrVar α) (ix : Option Int) (v : Option α) : Option (ArrVar α × Bool) :=
  match s.check ix with
  | none => none
  | some none => some (s, false)
  | some (some i) => s.setElement i v

/-- `setUnknown`, `ArrayReference.cc:258-264`. -/
def Ref.setUnknown (s : ArrVar α) (ix : Option Int) : Option (ArrVar α × Bool) :=
  match s.check ix with
  | none => none
  | some none => some (s, false)
  | some (some i) => s.setElementUnknown i

/-- `saveCurrentValue`, `ArrayReference.cc:266-276`. -/
def Ref.save (r : Ref α) (s : ArrVar α) (ix : Option Int) : Option (Ref α) :=
  match s.check ix with
  | none => none
  | some none => some { r with saved := false }
  | some (some i) => some ⟨(s.get).bind (·.getElement i), true⟩

/-- `restoreSavedValue`, `ArrayReference.cc:278-287`. -/
def Ref.restore (r : Ref α) (s : ArrVar α) (ix : Option Int) : Option (Ref α × ArrVar α × Bool) :=
  match s.check ix with
  | none => none
  | some none => some (r, s, false)
  | some (some i) =>
    if r.saved then
      if r.savedValue ≠ (s.get).bind (·.getElement i) then
        match s.setElement i r.savedValue with
        | some (s', b) => some ({ r with saved := false }, s', b)
        | none => none
      else some ({ r with saved := false }, s, false)
    else some (r, s, false)

/-- `selfCheck` and `getValue`, `ArrayReference.cc:118-182`: `none` is a plan error. -/
def Ref.read (s : ArrVar α) (ix : Option Int) : Option (Option α) :=
  match ix with
  | none => some none
  | some i =>
    if i < 0 then none
    else match s.get with
      | none => some none
      | some w => if i.toNat < w.size then some (w.getElement i.toNat) else none

/-! ## Assignments of one step -/

/-- Integer variables and one array variable. `UserVariable.cc`, `ArrayVariable.cc`, as used by `Assignment.cc:142-170`. -/
structure Store (α : Type) where
  ints : Nat → Scalar Int
  arr : ArrVar α

/-- The target and the value of an assignment, as fixed when its node starts (`Assignment::fixValue`, `Assignment.cc:122-126`):
an integer variable, or the element of the array whose index is the value of an integer variable.  The target is
an expression; its index is not fixed. -/
inductive Asg (α : Type)
  | int (k : Nat) (v : Option Int)
  | elem (k : Nat) (v : Option α)
deriving Repr

/-- `Assignment::execute`, `Assignment.cc:142-149`; `none` is a plan error. -/
def Store.exec (st : Store α) : Asg α → Option (Store α)
  | .int k v => some { st with ints := fun i => if i = k then ((st.ints k).set v).1 else st.ints i }
  | .elem k v => (Ref.set st.arr (st.ints k).get v).map fun r => { st with arr := r.1 }

/-- `PlexilExec::performAssignments`, `PlexilExec.cc:594-606` (without the retractions). -/
def Store.perform : Store α → List (Asg α) → Option (Store α)
  | st, [] => some st
  | st, a :: as => match st.exec a with
    | some st' => Store.perform st' as
    | none => none

end Verif.Var
