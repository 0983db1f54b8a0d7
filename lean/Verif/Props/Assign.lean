import Verif.Assign.Model
import Verif.Props.Var
import Verif.Props.Decl
/-
C138: storing values of any type.
-/
set_option autoImplicit false
set_option linter.unusedSimpArgs false
namespace Verif.Assign
open Verif.Value (Value Payload Arr I32 F64 Str)
open Verif.Text (VT)
open Verif.Var (Scalar ArrVar Ref pad_get)

/-! ## Specification -/

/-- The type of a value. -/
def tag : Payload → VT
  | .bool _ => .boolean
  | .int _ => .integer
  | .real _ => .real
  | .str _ => .string
  | .nodeState _ => .nodeState
  | .outcome _ => .outcome
  | .failure _ => .failure
  | .handle _ => .commandHandle
  | .boolArr _ => .booleanArray
  | .intArr _ => .integerArray
  | .realArr _ => .realArray
  | .strArr _ => .stringArray

/-- The number of elements of an array. -/
def size : Payload → Nat
  | .boolArr a => a.size
  | .intArr a => a.size
  | .realArr a => a.size
  | .strArr a => a.size
  | _ => 0

/-- Element `j` of an array, if it is known. -/
def elt : Payload → Nat → Option Payload
  | .boolArr a, j => (a.getElement j).map .bool
  | .intArr a, j => (a.getElement j).map .int
  | .realArr a, j => (a.getElement j).map .real
  | .strArr a, j => (a.getElement j).map .str
  | _, _ => none

/-- An array is in order: as many contents as bits. -/
def Whole : Payload → Prop
  | .boolArr a => a.WF
  | .intArr a => a.WF
  | .realArr a => a.WF
  | .strArr a => a.WF
  | _ => True

/-- What the variable reads as; `none` is unknown. -/
def AVar.read : AVar → Option Payload
  | .bool s => s.get.map .bool
  | .int s => s.get.map .int
  | .real s => s.get.map .real
  | .str s => s.get.map .str
  | .boolArr s => s.get.map .boolArr
  | .intArr s => s.get.map .intArr
  | .realArr s => s.get.map .realArr
  | .strArr s => s.get.map .strArr

/-- The node that declares it is not INACTIVE. -/
def AVar.active : AVar → Bool
  | .bool s => s.active
  | .int s => s.active
  | .real s => s.active
  | .str s => s.active
  | .boolArr s => s.active
  | .intArr s => s.active
  | .realArr s => s.active
  | .strArr s => s.active

/-- The size declared, if there is one. -/
def AVar.limit : AVar → Option Nat
  | .boolArr s => if s.hasSize then some s.maxSize else none
  | .intArr s => if s.hasSize then some s.maxSize else none
  | .realArr s => if s.hasSize then some s.maxSize else none
  | .strArr s => if s.hasSize then some s.maxSize else none
  | _ => none

/-- A known array has contents. -/
def AVar.Sound : AVar → Prop
  | .boolArr s => s.known = true → s.value.isSome = true
  | .intArr s => s.known = true → s.value.isSome = true
  | .realArr s => s.known = true → s.value.isSome = true
  | .strArr s => s.known = true → s.value.isSome = true
  | _ => True

/-- A value can be stored in a variable of that type: it has this type, or is an Integer for a Real. -/
def Suits (t : VT) (p : Payload) : Prop := tag p = t ∨ (t = .real ∧ tag p = .integer)

/-- A value within the declared size. -/
def Within (x : AVar) (p : Payload) : Prop := ∀ n, x.limit = some n → size p ≤ n

/-- What is stored: an Integer in a Real variable is converted. -/
def converted (conv : I32 → F64) (t : VT) (p : Payload) : Payload :=
  match t, p with
  | .real, .int i => .real (conv i)
  | _, p => p

/-- The value is one an expression of that type may have: dates and durations are Reals. -/
def OfType (t : VT) (v : Value) : Prop := ∀ p, v = .known p → tag p = t ∨ ((t = .date ∨ t = .duration) ∧ tag p = .real)

/-! ## Proofs -/

variable {conv : I32 → F64}

/-- **C138, exactly.** Storing a value in a variable brings the executive down if and only if the value is known and does not have the variable's type (and is not an Integer for a Real), or is an array larger than the declared size. -/
theorem c138_exact (x : AVar) (v : Value) : x.set conv v = none ↔ ∃ p, v = .known p ∧ ¬ (Suits x.type p ∧ Within x p) := by
  cases v with
  | unknown t => cases x <;> simp [AVar.set, getBool, getInt, getReal, getStr, getBoolArr, getIntArr, getRealArr, getStrArr, ArrVar.set]
  | known p =>
    simp only [Value.known.injEq, exists_eq_left']
    cases x <;> cases p <;> simp [AVar.set, getBool, getInt, getReal, getStr, getBoolArr, getIntArr, getRealArr, getStrArr, ArrVar.set, Verif.Var.setImpl_eq, Suits, Within, tag, AVar.type, AVar.limit, size]

omit conv in
private theorem check_of_get {α : Type} [DecidableEq α] {s : ArrVar α} {w : Arr α} (h : s.get = some w) : s.active = true ∧ s.known = true ∧ s.value = some w := by
  unfold ArrVar.get at h
  split at h
  · next hh => simp only [Bool.and_eq_true] at hh; exact ⟨hh.1, hh.2, h⟩
  · cases h

omit conv in
private theorem setElement_some {α : Type} [DecidableEq α] {s : ArrVar α} {w : Arr α} (h : s.value = some w) (i : Nat) (v : Option α) : (s.setElement i v).isSome = true := by
  unfold ArrVar.setElement
  rw [h]
  simp only
  cases v with
  | none =>
    cases hg : w.getElement i with
    | none => rfl
    | some y =>
      have : i < w.size := by unfold Arr.getElement at hg; split at hg <;> simp_all
      simp [Arr.setElementUnknown, this]
  | some x =>
    cases hg : w.getElement i with
    | none => rfl
    | some y => simp only; split <;> rfl

omit conv in
private theorem ref_some {α : Type} [DecidableEq α] {s : ArrVar α} {w : Arr α} (h : s.get = some w) {i : Int} (hi : 0 ≤ i) (v : Option α) : ∃ r, Ref.set s (some i) v = some r := by
  obtain ⟨h1, h2, h3⟩ := check_of_get h
  have : ¬ i < 0 := by omega
  have := setElement_some h3 i.toNat v
  rw [Option.isSome_iff_exists] at this
  simpa [Ref.set, ArrVar.check, h1, h2, ‹¬ i < 0›] using this

/-- **C138, elements exactly.** Storing a value in an element of an array that is known brings the executive down if and only if the index is negative, or the value is known and does not have the type of the elements
(and is not an Integer for a Real). An index beyond the end does not. -/
theorem c138_element_exact (x : AVar) (q : Payload) (hq : x.read = some q) (ha : x.targetType (.element none) ≠ .unknown) (i : Int) (v : Value) :
    x.store conv (.element (some i)) v = none ↔ i < 0 ∨ ∃ p, v = .known p ∧ ¬ Suits (x.targetType (.element none)) p := by
  by_cases hi : i < 0
  · cases x <;> simp_all [AVar.store, AVar.setElement, AVar.targetType, AVar.read] <;>
    · obtain ⟨w, hw, _⟩ := hq
      obtain ⟨h1, h2, h3⟩ := check_of_get hw
      simp [ArrVar.check, h1, h2, hi]
  · have h0 : 0 ≤ i := by omega
    cases x <;> simp_all [AVar.store, AVar.setElement, AVar.targetType, AVar.read] <;>
    · obtain ⟨w, hw, _⟩ := hq
      obtain ⟨h1, h2, h3⟩ := check_of_get hw
      have hc := fun v => ref_some hw h0 v
      have hi : ¬ i < 0 := by omega
      cases v with
      | unknown t =>
        obtain ⟨r, hr⟩ := hc none
        simp [ArrVar.check, h1, h2, hi, getBool, getInt, getReal, getStr, hr]
      | known p =>
        cases p <;> simp [ArrVar.check, h1, h2, hi, getBool, getInt, getReal, getStr, Suits, tag] <;>
          (obtain ⟨r, hr⟩ := hc (some _); rw [hr]; simp)

/-- **C138, an element of an array that is unknown, or with an unknown index.** Nothing is stored, whatever the value, and nothing goes wrong. -/
theorem c138_element_unknown (x : AVar) (ha : x.targetType (.element none) ≠ .unknown) (ix : Option Int) (v : Value) (hs : x.Sound) (h : x.read = none ∨ ix = none) :
    x.store conv (.element ix) v = some (x, false) := by
  cases x <;> first
    | (exact absurd rfl ha)
    | (next s =>
        have hc : s.check ix = some none := by
          unfold ArrVar.check
          split
          · next hak =>
            simp only [Bool.and_eq_true] at hak
            have hv := hs hak.2
            rcases h with h | h
            · simp [AVar.read, ArrVar.get, hak.1, hak.2] at h
              simp [h] at hv
            · rw [h]
          · rfl
        simp [AVar.store, AVar.setElement, hc])

omit conv in
private theorem pad_size {α : Type} (d : α) (n : Nat) (a : Arr α) : a.size ≤ (Verif.Var.pad d n a).size := by
  unfold Verif.Var.pad
  split
  · next h => simp only [Arr.size, Arr.resize, Verif.Value.vresize] at *; simp; omega
  · exact Nat.le_refl _

/-- **C138, the value arrives.** When a value is stored in a variable of a node that is not INACTIVE, the variable keeps its type and its node stays active; if the value is unknown so is the variable; if it is known the variable has it
(as a Real if it is an Integer and the variable is Real); an array has its elements, the ones beyond its end up to the declared size being unknown. -/
theorem c138_stored (x y : AVar) (v : Value) (p : Bool) (hact : x.active = true) (h : x.set conv v = some (y, p)) :
    y.type = x.type ∧ y.active = true ∧ y.limit = x.limit ∧
      (∀ t, v = .unknown t → y.read = none) ∧
      (∀ q, v = .known q → Whole q → ∃ r, y.read = some r ∧ tag r = x.type ∧ size q ≤ size r ∧ (∀ j, elt r j = elt (converted conv x.type q) j) ∧ (x.type = .boolean ∨ x.type = .integer ∨ x.type = .real ∨ x.type = .string → r = converted conv x.type q)) := by
  cases v with
  | unknown t =>
    cases x <;> simp [AVar.set, getBool, getInt, getReal, getStr, getBoolArr, getIntArr, getRealArr, getStrArr, ArrVar.set, Scalar.set] at h <;>
    · obtain ⟨rfl, _⟩ := h
      simp_all [AVar.type, AVar.active, AVar.limit, AVar.read, Scalar.setUnknown, ArrVar.setUnknown, Scalar.active, ArrVar.active, Scalar.get, ArrVar.get]
  | known q =>
    cases x <;> cases q <;> simp [AVar.set, getBool, getInt, getReal, getStr, getBoolArr, getIntArr, getRealArr, getStrArr, ArrVar.set, Verif.Var.setImpl_eq, Scalar.set] at h <;> first
      | (obtain ⟨rfl, _⟩ := h
         simp_all [AVar.type, AVar.active, AVar.limit, AVar.read, Scalar.setImpl, Scalar.active, ArrVar.active, Scalar.get, ArrVar.get, tag, size, elt, converted])
      | (obtain ⟨_, rfl⟩ := h
         refine ⟨rfl, hact, rfl, fun t ht => (by cases ht), fun q hq hw => ?_⟩
         cases hq
         simp only [AVar.active, ArrVar.active] at hact
         simp only [AVar.read, ArrVar.get, ArrVar.active, hact, Bool.and_true, if_true, Option.map_some, Option.some.injEq, exists_eq_left']
         refine ⟨rfl, pad_size _ _ _, fun j => ?_, fun ht => by simp [AVar.type] at ht⟩
         have hw' : Arr.WF _ := hw
         simp only [elt, converted, pad_get hw']
         rfl)

omit conv in
private theorem elem_keeps {α : Type} [DecidableEq α] {s s' : ArrVar α} {i : Nat} {v : Option α} {p : Bool} (h : s.setElement i v = some (s', p)) :
    s'.hasSize = s.hasSize ∧ s'.count = s.count ∧ s'.maxSize = s.maxSize := by
  unfold ArrVar.setElement at h
  (repeat' split at h) <;> simp only [Option.some.injEq, Prod.mk.injEq, reduceCtorEq] at h <;> (obtain ⟨rfl, _⟩ := h; exact ⟨rfl, rfl, rfl⟩)

/-- **C138, the value arrives in the element.** When a value is stored in the element with index `i` of an array that is known, the element has it (if the array has such an element), the others and the size stay as they are. -/
theorem c138_element_stored (x y : AVar) (q : Payload) (hq : x.read = some q) (hw : Whole q) (i : Nat) (v : Value) (p : Bool) (h : x.store conv (.element (some (i : Int))) v = some (y, p)) :
    y.type = x.type ∧ y.active = x.active ∧ y.limit = x.limit ∧ ∃ r, y.read = some r ∧ tag r = tag q ∧ size r = size q ∧
      ∀ j, elt r j = if j = i ∧ i < size q then (match v with | .unknown _ => none | .known u => some (converted conv (x.targetType (.element none)) u)) else elt q j := by
  have hi : ¬ ((i : Int) < 0) := by omega
  cases x <;> simp only [AVar.store, AVar.setElement, reduceCtorEq] at h <;>
  · next s =>
    simp only [AVar.read, Option.map_eq_some_iff] at hq
    obtain ⟨w, hg, rfl⟩ := hq
    obtain ⟨h1, h2, h3⟩ := check_of_get hg
    have hc : s.check (some (i : Int)) = some (some i) := by simp [ArrVar.check, h1, h2, hi]
    simp only [hc] at h
    cases v with
    | unknown t =>
      simp only [getBool, getInt, getReal, getStr, Option.bind_some, Option.map_eq_some_iff, Ref.set, hc] at h
      obtain ⟨⟨s', b⟩, hs', he⟩ := h
      cases he
      obtain ⟨hk, hl⟩ := elem_keeps hs'
      obtain ⟨w', hw', hwf, hsz, hel⟩ := Verif.Var.c52_set_element s s' w i none b hg hw hs'
      refine ⟨rfl, ?_, ?_, ?_⟩
      · simp only [AVar.active, ArrVar.active, hl.1]
      · simp only [AVar.limit, hk, hl.2]
      · simp only [AVar.read, hw', Option.map_some, Option.some.injEq, exists_eq_left']
        refine ⟨rfl, hsz, fun j => ?_⟩
        split
        · next hj => simp only [elt, hel]; rw [if_pos (c := j = i ∧ i < w.size) hj]; rfl
        · next hj => simp only [elt, hel]; rw [if_neg (c := j = i ∧ i < w.size) hj]
    | known u =>
      cases u <;> simp only [getBool, getInt, getReal, getStr, Option.bind_some, Option.map_eq_some_iff, Ref.set, hc, Option.bind_none, reduceCtorEq] at h <;>
      · obtain ⟨⟨s', b⟩, hs', he⟩ := h
        cases he
        obtain ⟨hk, hl⟩ := elem_keeps hs'
        obtain ⟨w', hw', hwf, hsz, hel⟩ := Verif.Var.c52_set_element s s' w i (some _) b hg hw hs'
        refine ⟨rfl, ?_, ?_, ?_⟩
        · simp only [AVar.active, ArrVar.active, hl.1]
        · simp only [AVar.limit, hk, hl.2]
        · simp only [AVar.read, hw', Option.map_some, Option.some.injEq, exists_eq_left']
          refine ⟨rfl, hsz, fun j => ?_⟩
          split
          · next hj => simp only [elt, hel]; rw [if_pos (c := j = i ∧ i < w.size) hj]; rfl
          · next hj => simp only [elt, hel]; rw [if_neg (c := j = i ∧ i < w.size) hj]

omit conv in
private theorem tag_plain (p : Payload) : tag p ≠ .date ∧ tag p ≠ .duration := by cases p <;> simp [tag]

/-- **C138, types known.** If a plan is accepted, the type of the right-hand side is known when it is read, and the values it has are of that type and not larger than the variable's declared size, then storing them does not bring the executive down; nor in elements unless the index is negative. -/
theorem c138_typed_partial (x : AVar) (t : Target) (rhs : VT) (v : Value) (hx : x.Sound) (hel : ∀ ix, t = .element ix → x.targetType t ≠ .unknown)
    (hacc : Verif.Decl.compatible (x.targetType t) rhs = true) (hrhs : rhs ≠ .unknown) (hty : OfType rhs v)
    (hwi : ∀ p, v = .known p → Within x p) (hix : ∀ i, t = .element (some i) → 0 ≤ i) : x.store conv t v ≠ none := by
  rw [Verif.Decl.compatible_iff] at hacc
  cases t with
  | whole =>
    intro h
    rw [AVar.store, c138_exact] at h
    obtain ⟨p, rfl, hn⟩ := h
    refine hn ⟨?_, hwi p rfl⟩
    have hp := hty p rfl
    simp only [AVar.targetType] at hacc
    revert hacc hp
    unfold Verif.Decl.Spec.Fits Suits
    cases x <;> cases rhs <;> simp [AVar.type] at hrhs ⊢ <;> first | (rintro (h | h) <;> [exact absurd h (tag_plain p).1; exact .inl h]) | (rintro (h | h) <;> [exact absurd h (tag_plain p).2; exact .inl h]) | simp_all
  | element ix =>
    cases ix with
    | none => rw [c138_element_unknown x (hel _ rfl) none v hx (.inr rfl)]; simp
    | some i =>
      cases hr : x.read with
      | none => rw [c138_element_unknown x (hel _ rfl) (some i) v hx (.inl hr)]; simp
      | some q =>
        intro h
        rw [c138_element_exact x q hr (hel _ rfl)] at h
        rcases h with h | ⟨p, rfl, hn⟩
        · have := hix i rfl; omega
        · apply hn
          have hp := hty p rfl
          have hne := hel _ rfl
          have hacc' : Verif.Decl.Spec.Fits (x.targetType (.element none)) rhs := hacc
          revert hacc' hp
          unfold Verif.Decl.Spec.Fits Suits
          cases x <;> cases rhs <;> simp [AVar.targetType] at hrhs hne ⊢ <;> first | (rintro (h | h) <;> [exact absurd h (tag_plain p).1; exact .inl h]) | (rintro (h | h) <;> [exact absurd h (tag_plain p).2; exact .inl h]) | simp_all

private theorem store_keeps {x y : AVar} {t : Target} {v : Value} {p : Bool} (h : x.store conv t v = some (y, p)) (hs : x.Sound) :
    y.type = x.type ∧ y.Sound ∧ (∀ t, y.targetType t = x.targetType t) ∧ y.limit = x.limit := by
  cases t with
  | whole =>
    cases x <;> simp only [AVar.store, AVar.set, Option.map_eq_some_iff, Option.bind_eq_some_iff] at h <;> first
      | (obtain ⟨o, _, he⟩ := h
         cases he
         exact ⟨rfl, trivial, fun t => (by cases t <;> rfl), rfl⟩)
      | (obtain ⟨o, _, ⟨s', b⟩, h', he⟩ := h
         cases he
         cases o with
         | none =>
           simp only [ArrVar.set, ArrVar.setUnknown, Option.some.injEq, Prod.mk.injEq] at h'
           obtain ⟨rfl, _⟩ := h'
           exact ⟨rfl, fun h => (by cases h), fun t => (by cases t <;> rfl), rfl⟩
         | some a =>
           simp only [ArrVar.set, Verif.Var.setImpl_eq] at h'
           split at h'
           · cases h'
           · simp only [Option.some.injEq, Prod.mk.injEq] at h'
             obtain ⟨rfl, _⟩ := h'
             exact ⟨rfl, fun _ => rfl, fun t => (by cases t <;> rfl), rfl⟩)
  | element ix =>
    cases x <;> simp only [AVar.store, AVar.setElement, reduceCtorEq] at h <;>
    · split at h
      · cases h
      · cases h; exact ⟨rfl, hs, fun _ => rfl, rfl⟩
      · next j hj =>
        simp only [Option.bind_eq_some_iff, Option.map_eq_some_iff] at h
        obtain ⟨o, _, ⟨s', b⟩, h', he⟩ := h
        cases he
        simp only [Ref.set, hj] at h'
        obtain ⟨a1, a2, a3⟩ := elem_keeps h'
        refine ⟨rfl, fun hk => ?_, fun t => (by cases t <;> rfl), by simp only [AVar.limit, a1, a3]⟩
        unfold ArrVar.setElement at h'
        (repeat' split at h') <;> simp only [Option.some.injEq, Prod.mk.injEq, reduceCtorEq] at h' <;> (obtain ⟨rfl, _⟩ := h'; first | rfl | exact hs hk)

/-- **C138, a cycle of assignments.** If every assignment to be performed is one that was accepted with a right-hand side of known type, and has a value of that type not larger than the variable's declared size, and no index is negative, all are performed.
Variables not assigned to stay as they are; a variable assigned to once has the value stored in it. -/
theorem c138_perform_partial (l : List Asg) : ∀ (σ : Nat → AVar) (rhs : Nat → VT),
    (∀ a ∈ l, (σ a.dest).Sound ∧ (∀ ix, a.target = .element ix → (σ a.dest).targetType a.target ≠ .unknown)) →
    (∀ (k : Nat) (a : Asg), l[k]? = some a → Verif.Decl.compatible ((σ a.dest).targetType a.target) (rhs k) = true ∧ rhs k ≠ .unknown ∧ OfType (rhs k) a.value ∧
      (∀ p, a.value = .known p → Within (σ a.dest) p) ∧ (∀ i, a.target = .element (some i) → 0 ≤ i)) →
    ∃ σ', perform conv l σ = some σ' ∧ (∀ i, (∀ a ∈ l, a.dest ≠ i) → σ' i = σ i) ∧ (∀ i, (σ' i).type = (σ i).type) ∧
      ∀ pre a post, l = pre ++ a :: post → (∀ b ∈ pre ++ post, b.dest ≠ a.dest) → ∃ p, (σ a.dest).store conv a.target a.value = some (σ' a.dest, p) := by
  induction l with
  | nil => intro σ rhs _ _; exact ⟨σ, rfl, fun _ _ => rfl, fun _ => rfl, fun pre a post h => by simp at h⟩
  | cons a l ih =>
    intro σ rhs h1 h2
    obtain ⟨hs, he⟩ := h1 a (by simp)
    obtain ⟨hc, hu, ht, hw, hi⟩ := h2 0 a rfl
    have hne := c138_typed_partial (conv := conv) (σ a.dest) a.target (rhs 0) a.value hs he hc hu ht hw hi
    cases hst : (σ a.dest).store conv a.target a.value with
    | none => exact absurd hst hne
    | some r =>
      obtain ⟨y, p⟩ := r
      obtain ⟨k1, k2, k3, k4⟩ := store_keeps hst hs
      have hty : ∀ i, ((fun i => if i = a.dest then y else σ i) i).type = (σ i).type := by
        intro i; dsimp only; split
        · next h => rw [h]; exact k1
        · rfl
      have hta : ∀ i t, ((fun i => if i = a.dest then y else σ i) i).targetType t = (σ i).targetType t := by
        intro i t; dsimp only; split
        · next h => rw [h]; exact k3 t
        · rfl
      obtain ⟨σ', e1, e2, e3, e4⟩ := ih (fun i => if i = a.dest then y else σ i) (fun k => rhs (k + 1)) (by
        intro b hb
        obtain ⟨b1, b2⟩ := h1 b (by simp [hb])
        refine ⟨?_, fun ix hx => by rw [hta]; exact b2 ix hx⟩
        split
        · exact k2
        · exact b1) (by
        intro k b hb
        obtain ⟨b1, b2, b3, b4, b5⟩ := h2 (k + 1) b (by simpa using hb)
        refine ⟨by rw [hta]; exact b1, b2, b3, fun p hp => ?_, b5⟩
        split
        · next h => have := b4 p hp; rw [h] at this; unfold Within at this ⊢; rw [k4]; exact this
        · exact b4 p hp)
      refine ⟨σ', by simp only [perform, hst]; exact e1, fun i hi => ?_, fun i => by rw [e3, hty], fun pre b post he hb => ?_⟩
      · rw [e2 i (fun b hb => hi b (by simp [hb])), if_neg]
        exact fun h => hi a (by simp) h.symm
      · cases pre with
        | nil =>
          simp only [List.nil_append, List.cons.injEq] at he hb
          obtain ⟨rfl, rfl⟩ := he
          refine ⟨p, ?_⟩
          rw [hst, e2 a.dest hb, if_pos rfl]
        | cons c pre =>
          simp only [List.cons_append, List.cons.injEq] at he
          obtain ⟨rfl, he⟩ := he
          have hne : b.dest ≠ a.dest := fun h => hb a (by simp) h.symm
          have := e4 pre b post he (fun d hd => hb d (by simp only [List.cons_append, List.mem_cons]; exact .inr hd))
          simpa only [if_neg hne] using this

/-! ## What goes wrong -/

/-- **C138, refuted: types not known when the plan is read.** An assignment whose right-hand side is a lookup that is not declared is accepted whatever the variable's type; if the value that comes back is of another type the executive goes down, whatever
else was to be assigned in that cycle. -/
theorem c138_untyped_refuted (a : Asg) (l : List Asg) (σ : Nat → AVar) (p : Payload) (hw : a.target = .whole) (hv : a.value = .known p) (hp : ¬ Suits (σ a.dest).type p) :
    accepted (σ a.dest) a.target .unknown = true ∧ perform conv (a :: l) σ = none := by
  constructor
  · rw [accepted, Verif.Decl.compatible_iff]; exact .inr (.inl rfl)
  · have : (σ a.dest).store conv a.target a.value = none := by
      rw [hw, hv, AVar.store, c138_exact]
      exact ⟨p, rfl, fun h => hp h.1⟩
    simp only [perform, this]

/-- **C138, refuted: sizes.** The types agree, but the array is larger than declared: the executive goes down. -/
theorem c138_size_refuted (a : Asg) (l : List Asg) (σ : Nat → AVar) (p : Payload) (n : Nat) (hw : a.target = .whole) (hv : a.value = .known p) (hl : (σ a.dest).limit = some n) (hn : n < size p) :
    accepted (σ a.dest) a.target (σ a.dest).type = true ∧ perform conv (a :: l) σ = none := by
  constructor
  · rw [accepted, Verif.Decl.compatible_iff, hw]; exact .inr (.inr (.inl rfl))
  · have : (σ a.dest).store conv a.target a.value = none := by
      rw [hw, hv, AVar.store, c138_exact]
      exact ⟨p, rfl, fun h => by have := h.2 n hl; omega⟩
    simp only [perform, this]

/-! ## Examples -/

/-- An Integer variable (declared with an initializer that is unknown), whose node is not INACTIVE. -/
def exInt : AVar := .int ⟨0, false, 0, false, 1⟩

/-- A Real variable with a value. -/
def exReal : AVar := .real ⟨7, true, 0, false, 1⟩

/-- An array of Strings, of size 2, with one element known. -/
def exArr : AVar := .strArr ⟨true, 2, some ⟨[true, false], [[97], []]⟩, true, none, false, 1⟩

/-- Those three variables. -/
def exVars : Nat → AVar
  | 0 => exInt
  | 1 => exReal
  | _ => exArr

/-- The hypotheses of `c138_perform_partial` are met by `i = 3; r = 4; s[1] = "b"`, the second one converting an Integer. -/
example : ∃ σ', perform conv [⟨0, .whole, .known (.int 3)⟩, ⟨1, .whole, .known (.int 4)⟩, ⟨2, .element (some 1), .known (.str [98])⟩] exVars = some σ' ∧ (∀ i, i ≠ 0 → i ≠ 1 → i ≠ 2 → σ' i = exVars i) ∧ ∀ i, (σ' i).type = (exVars i).type := by
  obtain ⟨σ', h1, h2, h3, _⟩ := c138_perform_partial (conv := conv) [⟨0, .whole, .known (.int 3)⟩, ⟨1, .whole, .known (.int 4)⟩, ⟨2, .element (some 1), .known (.str [98])⟩] exVars
    (fun k => match k with | 0 => .integer | 1 => .integer | _ => .string)
    (by
      intro a ha
      simp only [List.mem_cons, List.not_mem_nil, or_false] at ha
      rcases ha with rfl | rfl | rfl <;> simp [exVars, exInt, exReal, exArr, AVar.Sound, AVar.targetType])
    (by
      intro k a ha
      match k, ha with
      | 0, ha => cases ha; simp [exVars, exInt, AVar.targetType, AVar.type, Verif.Decl.compatible, OfType, tag, Within, AVar.limit]
      | 1, ha => cases ha; simp [exVars, exReal, AVar.targetType, AVar.type, Verif.Decl.compatible, OfType, tag, Within, AVar.limit]
      | 2, ha => cases ha; simp [exVars, exArr, AVar.targetType, AVar.type, Verif.Decl.compatible, OfType, tag, Within, AVar.limit, size]
      | k + 3, ha => simp at ha)
  exact ⟨σ', h1, fun i a b c => h2 i (by simp [Ne.symm a, Ne.symm b, Ne.symm c]), h3⟩

/-- The hypotheses of the refutations are met: a Boolean for the Integer; three Strings for two. -/
example : ¬ Suits exInt.type (.bool true) ∧ exArr.limit = some 2 ∧ 2 < size (.strArr ⟨[true, true, true], [[], [], []]⟩) := by
  refine ⟨by simp [Suits, tag, exInt, AVar.type], rfl, by simp [size, Arr.size]⟩

/-- Storing the Integer 4 in the Real variable and reading it. -/
example : ∃ y p, exReal.set conv (.known (.int 4)) = some (y, p) ∧ y.read = some (.real (conv 4)) := ⟨_, _, rfl, rfl⟩

/-- Element 1 of the array is stored, element 0 stays, and storing element 5 changes nothing. -/
example : (∃ y p, exArr.store conv (.element (some 1)) (.known (.str [])) = some (y, p) ∧ y.read = some (.strArr ⟨[true, true], [[97], []]⟩)) ∧
    (∃ y p, exArr.store conv (.element (some 5)) (.known (.str [])) = some (y, p) ∧ y.read = exArr.read) := ⟨⟨_, _, rfl, rfl⟩, ⟨_, _, rfl, rfl⟩⟩

end Verif.Assign
