import Verif.Var.Model
import Verif.Props.Value

/-!
# Plan variables: scalars (C34, C51), arrays (C52), array elements as assignment targets (C53, C54)
-/
namespace Verif.Var
open Verif.Value (Arr)
open Verif.Props.Value

variable {α : Type} [DecidableEq α]

/-! ## Scalars -/

/-- What a variable is to its user: a value that may be unknown, a saved value that may be unknown, and how often it is activated. -/
structure Cell (α : Type) where
  cur : Option α
  saved : Option α
  holds : Nat

/-- What each operation is to do: the first activation sets the initial value; assigning sets, saving remembers and
restoring brings back the value, known or not. -/
def Cell.step (c : Cell α) : Op α → Cell α
  | .activate i => if c.holds = 0 then ⟨i.getD none, none, 1⟩ else { c with holds := c.holds + 1 }
  | .deactivate => { c with holds := c.holds - 1 }
  | .set v => { c with cur := v }
  | .setUnknown => { c with cur := none }
  | .save => { c with saved := c.cur }
  | .restore => { c with cur := c.saved }

/-- An inactive variable reads as unknown. -/
def Cell.read (c : Cell α) : Option α := if 0 < c.holds then c.cur else none

/-- The simulation. -/
def Sim (s : Scalar α) (c : Cell α) : Prop :=
  c.cur = (if s.known then some s.value else none) ∧ c.saved = (if s.savedKnown then some s.saved else none) ∧ c.holds = s.count

theorem sim_step {s : Scalar α} {c : Cell α} (h : Sim s c) (o : Op α) : Sim (s.step o).1 (c.step o) := by
  obtain ⟨h1, h2, h3⟩ := h
  cases o with
  | activate i =>
    simp only [Scalar.step, Scalar.activate, Cell.step, h3]
    split
    · next h0 =>
      match i with
      | none => simp [Sim, h0]
      | some none => simp [Sim, h0]
      | some (some v) => simp [Sim, h0]
    · simp [Sim, h1, h2]
  | deactivate => exact ⟨h1, h2, by simp [Scalar.step, Scalar.deactivate, Cell.step, h3]⟩
  | set v =>
    cases v with
    | none => exact ⟨rfl, h2, h3⟩
    | some x => exact ⟨rfl, h2, h3⟩
  | setUnknown => exact ⟨rfl, h2, h3⟩
  | save => exact ⟨h1, h1, h3⟩
  | restore => exact ⟨h2, h2, h3⟩

theorem sim_run {s : Scalar α} {c : Cell α} (h : Sim s c) (os : List (Op α)) : Sim (s.run os) (os.foldl Cell.step c) := by
  induction os generalizing s c with
  | nil => exact h
  | cons o os ih => exact ih (sim_step h o)

theorem sim_get {s : Scalar α} {c : Cell α} (h : Sim s c) : s.get = c.read := by
  obtain ⟨h1, _, h3⟩ := h
  simp [Scalar.get, Scalar.active, Cell.read, h1, h3]

/-- **C51.** After every history of activations, assignments, saving and restoring a scalar variable reads as a cell that does just
what these operations say, whatever was in its memory to begin with. -/
theorem c51_scalar (x y : α) (os : List (Op α)) :
    ((Scalar.new x y).run os).get = (os.foldl Cell.step ⟨none, none, 0⟩).read :=
  sim_get (sim_run ⟨rfl, rfl, rfl⟩ os)

/-- **C51.** Every operation but deactivation calls the listeners if it changes what the variable reads as. -/
theorem c51_change_published (s : Scalar α) (o : Op α) (ho : o ≠ .deactivate) (h : (s.step o).1.get ≠ s.get) : (s.step o).2 = true := by
  have hact : s.count = 0 ∨ 0 < s.count := by omega
  cases o with
  | deactivate => exact absurd rfl ho
  | activate i =>
    revert h
    simp only [Scalar.step, Scalar.activate]
    split
    · next h0 =>
      match i with
      | none => simp [Scalar.get, Scalar.active, h0]
      | some none => simp [Scalar.get, Scalar.active, h0]
      | some (some v) => simp
    · next h0 =>
      have : 0 < s.count := by omega
      simp [Scalar.get, Scalar.active, this]
  | save => exact absurd rfl h
  | set v =>
    revert h
    rcases hact with hc | hc <;> cases v <;> cases hk : s.known <;>
      simp_all [Scalar.step, Scalar.set, Scalar.setUnknown, Scalar.setImpl, Scalar.get, Scalar.active]
  | setUnknown =>
    revert h
    rcases hact with hc | hc <;> cases hk : s.known <;> simp_all [Scalar.step, Scalar.setUnknown, Scalar.get, Scalar.active]
  | restore =>
    revert h
    rcases hact with hc | hc <;> cases h1 : s.known <;> cases h2 : s.savedKnown <;> by_cases hv : s.value = s.saved <;>
      simp_all [Scalar.step, Scalar.restore, Scalar.get, Scalar.active]

/-- **C51.** Listeners are not called for nothing, except by restoring an unknown value over an unknown one. -/
theorem c51_published_change (s : Scalar α) (o : Op α) (hp : (s.step o).2 = true) :
    (s.step o).1.get ≠ s.get ∨ o = .restore ∧ s.get = none ∧ (s.step o).1.get = none := by
  have hact : s.count = 0 ∨ 0 < s.count := by omega
  cases o with
  | deactivate => simp [Scalar.step, Scalar.deactivate] at hp
  | save => simp [Scalar.step, Scalar.save] at hp
  | activate i =>
    left
    revert hp
    simp only [Scalar.step, Scalar.activate]
    split
    · next h0 =>
      match i with
      | none => simp
      | some none => simp
      | some (some v) => simp [Scalar.get, Scalar.active, h0]
    · simp
  | set v =>
    left
    revert hp
    rcases hact with hc | hc <;> cases v <;> cases hk : s.known <;>
      simp_all [Scalar.step, Scalar.set, Scalar.setUnknown, Scalar.setImpl, Scalar.get, Scalar.active]
  | setUnknown =>
    left
    revert hp
    rcases hact with hc | hc <;> cases hk : s.known <;> simp_all [Scalar.step, Scalar.setUnknown, Scalar.get, Scalar.active]
  | restore =>
    revert hp
    rcases hact with hc | hc <;> cases h1 : s.known <;> cases h2 : s.savedKnown <;> by_cases hv : s.saved = s.value <;>
      simp_all [Scalar.step, Scalar.restore, Scalar.get, Scalar.active]

/-- **C34.** The value reported when an assignment is retracted (`getSavedValue`) is the one saved, provided that was known. -/
theorem c34_saved_reported_partial (x y : α) (os : List (Op α)) (v : α)
    (h : (os.foldl Cell.step ⟨none, none, 0⟩).saved = some v) : ((Scalar.new x y).run os).getSaved = some v := by
  have hs := (sim_run (s := Scalar.new x y) (c := ⟨none, none, 0⟩) ⟨rfl, rfl, rfl⟩ os).2.1
  rw [h] at hs
  split at hs
  · exact hs.symm
  · simp at hs

/-- **C34 fails** for an unknown value: a variable without a value is saved, assigned and restored; it reads unknown again, but
what is reported to listeners is whatever happened to be in memory, as a known value. -/
theorem c34_unknown_reported_known (x y v : α) :
    let s := (Scalar.new x y).run [.activate none, .save, .set (some v), .restore]
    s.get = none ∧ s.getSaved = some x := ⟨rfl, rfl⟩

/-! ## Arrays -/

/-- What can be read of an array variable: whether it is known, its size and its elements. -/
def ArrVar.reading (s : ArrVar α) : Option (Nat × (Nat → Option α)) := (s.get).map fun w => (w.size, w.getElement)

/-- The arrays handed to an operation are well formed (their two vectors are equally long: `C28_invariant`). -/
def ArrOp.WF : ArrOp α → Prop
  | .activate _ (some (some a)) => a.WF
  | .set (some a) => a.WF
  | _ => True

/-- An activation at which the size is `n`; any other operation. -/
def ArrOp.sized (n : Nat) : ArrOp α → Prop
  | .activate z _ => z = some (n : Int)
  | _ => True

/-- All arrays held are of size `n`. -/
structure Fit (n : Nat) (s : ArrVar α) : Prop where
  hasSize : s.hasSize = true
  max : s.maxSize = n
  value : ∀ w, s.value = some w → w.WF ∧ w.size = n
  saved : ∀ w, s.saved = some w → w.WF ∧ w.size = n
  known : s.known = true → s.value ≠ none
  savedKnown : s.savedKnown = true → s.saved ≠ none
  kept : s.saved ≠ none → s.value ≠ none

/-- The array padded with unknown elements up to `n`. -/
def pad (d : α) (n : Nat) (a : Arr α) : Arr α := if a.size < n then a.resize d n else a

theorem setImpl_eq (d : α) (s : ArrVar α) (a : Arr α) : s.setImpl d a =
    if s.hasSize && decide (s.maxSize < a.size) then none
    else some ({ s with value := some (pad d s.maxSize a), known := true }, (!s.known || decide (s.value ≠ some a)) && s.active) := by
  unfold ArrVar.setImpl pad
  split
  · rfl
  · cases hv : s.value with
    | none => simp
    | some w =>
      by_cases h : a = w
      · subst h; simp
      · have : ¬ w = a := fun h' => h h'.symm
        simp [h, this]

omit [DecidableEq α] in
theorem WF_resize {a : Arr α} (h : a.WF) (d : α) (n : Nat) : (a.resize d n).WF := by
  unfold Arr.WF at *; simp [Arr.resize, Verif.Value.vresize, h]

omit [DecidableEq α] in
theorem pad_fit {a : Arr α} (h : a.WF) (d : α) {n : Nat} (hn : a.size ≤ n) : (pad d n a).WF ∧ (pad d n a).size = n := by
  unfold pad
  split
  · exact ⟨WF_resize h d n, (C28_resize_get a h d n 0).2⟩
  · exact ⟨h, by omega⟩

omit [DecidableEq α] in
theorem pad_get {a : Arr α} (h : a.WF) (d : α) (n j : Nat) : (pad d n a).getElement j = a.getElement j := by
  unfold pad
  split
  · next hlt =>
    rw [(C28_resize_get a h d n j).1]
    split
    · rfl
    · unfold Arr.getElement; rw [if_neg (by omega)]
  · rfl

theorem setImpl_fit {n : Nat} {d : α} {s s' : ArrVar α} {a : Arr α} {p : Bool} (hs : Fit n s) (ha : a.WF)
    (h : s.setImpl d a = some (s', p)) : Fit n s' := by
  rw [setImpl_eq] at h
  split at h
  · simp at h
  · next hle =>
    have hle : a.size ≤ n := by
      simp only [hs.hasSize, hs.max, Bool.true_and, decide_eq_true_eq] at hle; omega
    simp only [Option.some.injEq, Prod.mk.injEq] at h
    obtain ⟨rfl, _⟩ := h
    refine ⟨hs.hasSize, hs.max, fun w hw => ?_, hs.saved, by simp, hs.savedKnown, by simp⟩
    cases hw
    rw [hs.max]
    exact pad_fit ha d hle

omit [DecidableEq α] in
theorem setElement_fit {a : Arr α} {n i : Nat} {x : α} (h : a.WF ∧ a.size = n) : (a.setElement i x).WF ∧ (a.setElement i x).size = n := by
  unfold Arr.setElement Arr.WF Arr.size at *
  split <;> simp [h]

omit [DecidableEq α] in
theorem setUnknown_fit {a a' : Arr α} {n i : Nat} (h : a.WF ∧ a.size = n) (h' : a.setElementUnknown i = some a') : a'.WF ∧ a'.size = n := by
  unfold Arr.setElementUnknown at h'
  unfold Arr.WF Arr.size at *
  split at h'
  · cases h'; simp [h]
  · simp at h'

/-- What `setElement` does. -/
theorem setElement_cases {s s' : ArrVar α} {i : Nat} {v : Option α} {p : Bool} (h : s.setElement i v = some (s', p)) :
    ∃ w, s.value = some w ∧
      ((s' = s ∧ p = false ∧ v = w.getElement i) ∨
       (∃ x, v = some x ∧ w.getElement i ≠ some x ∧ s' = { s with value := some (w.setElement i x) } ∧ p = s.active) ∨
       (∃ w', v = none ∧ w.getElement i ≠ none ∧ w.setElementUnknown i = some w' ∧ s' = { s with value := some w' } ∧ p = s.active)) := by
  unfold ArrVar.setElement at h
  cases hv : s.value with
  | none => rw [hv] at h; simp at h
  | some w =>
    refine ⟨w, rfl, ?_⟩
    rw [hv] at h
    simp only at h
    cases v with
    | some x =>
      cases hg : w.getElement i with
      | none =>
        simp only [hg, Option.some.injEq, Prod.mk.injEq] at h
        exact .inr (.inl ⟨x, rfl, by simp, h.1.symm, h.2.symm⟩)
      | some y =>
        simp only [hg] at h
        split at h
        · next hne =>
          simp only [Option.some.injEq, Prod.mk.injEq] at h
          exact .inr (.inl ⟨x, rfl, by simpa using fun h' => hne h'.symm, h.1.symm, h.2.symm⟩)
        · next hne =>
          simp only [Option.some.injEq, Prod.mk.injEq] at h
          exact .inl ⟨h.1.symm, h.2.symm, by simp only [ne_eq, Decidable.not_not] at hne; rw [hne]⟩
    | none =>
      cases hg : w.getElement i with
      | none =>
        simp only [hg, Option.some.injEq, Prod.mk.injEq] at h
        exact .inl ⟨h.1.symm, h.2.symm, rfl⟩
      | some y =>
        simp only [hg] at h
        cases hu : w.setElementUnknown i with
        | none => rw [hu] at h; simp at h
        | some w' =>
          simp only [hu, Option.some.injEq, Prod.mk.injEq] at h
          exact .inr (.inr ⟨w', rfl, by simp, rfl, h.1.symm, h.2.symm⟩)

theorem setElementUnknown_cases {s s' : ArrVar α} {i : Nat} {p : Bool} (h : s.setElementUnknown i = some (s', p)) :
    p = false ∧ (s' = s ∧ s.known = false ∨
      s.known = true ∧ ∃ w w', s.value = some w ∧ w.setElementUnknown i = some w' ∧ s' = { s with value := some w' }) := by
  unfold ArrVar.setElementUnknown at h
  split at h
  · next hk =>
    cases hv : s.value with
    | none => rw [hv] at h; simp at h
    | some w =>
      simp only [hv] at h
      cases hu : w.setElementUnknown i with
      | none => rw [hu] at h; simp at h
      | some w' =>
        simp only [hu, Option.some.injEq, Prod.mk.injEq] at h
        exact ⟨h.2.symm, .inr ⟨hk, w, w', rfl, hu, h.1.symm⟩⟩
  · next hk =>
    simp only [Option.some.injEq, Prod.mk.injEq] at h
    exact ⟨h.2.symm, .inl ⟨h.1.symm, by simpa using hk⟩⟩

theorem setElement_step_fit {n : Nat} {s s' : ArrVar α} {i : Nat} {v : Option α} {p : Bool} (hs : Fit n s)
    (h : s.setElement i v = some (s', p)) : Fit n s' := by
  obtain ⟨w, hv, h | ⟨x, _, _, rfl, _⟩ | ⟨w', _, _, hu, rfl, _⟩⟩ := setElement_cases h
  · rw [h.1]; exact hs
  · exact ⟨hs.hasSize, hs.max, fun u hu => by cases hu; exact setElement_fit (hs.value w hv), hs.saved, by simp, hs.savedKnown, by simp⟩
  · exact ⟨hs.hasSize, hs.max, fun u hu' => by cases hu'; exact setUnknown_fit (hs.value w hv) hu, hs.saved, by simp, hs.savedKnown, by simp⟩

theorem activate_fit {n : Nat} {d : α} {s s' : ArrVar α} {i : Option (Option (Arr α))} {p : Bool} (hw : (ArrOp.activate (some (n : Int)) i).WF)
    (hsz : s.hasSize = true) (hs : 0 < s.count → Fit n s)
    (hv : ∀ w, s.value = some w → w.WF ∧ w.size = n) (hsv : ∀ w, s.saved = some w → w.WF ∧ w.size = n)
    (hsk : s.savedKnown = true → s.saved ≠ none) (hkept : s.saved ≠ none → s.value ≠ none)
    (h : s.activate d (some (n : Int)) i = some (s', p)) : Fit n s' := by
  unfold ArrVar.activate at h
  by_cases h0 : s.count = 0
  · rw [if_pos h0] at h
    have he : ArrVar.evalSize { s with count := s.count + 1 } (some (n : Int)) = some { s with count := s.count + 1, maxSize := n } := by
      unfold ArrVar.evalSize
      simp [hsz]
    simp only [he] at h
    have F : ∀ (V : Option (Arr α)) (k : Bool), (∀ w, V = some w → w.WF ∧ w.size = n) → (k = true → V ≠ none) → (s.value ≠ none → V ≠ none) →
        Fit n { s with count := s.count + 1, maxSize := n, value := V, known := k } := fun V k h1 h2 h3 =>
      ⟨hsz, rfl, h1, hsv, h2, hsk, fun hs => h3 (hkept hs)⟩
    match i with
    | some (some a) =>
      simp only at h
      split at h
      · simp at h
      · exact setImpl_fit (F s.value false hv (by simp) (fun h => h)) hw h
    | some none =>
      simp only [Option.some.injEq, Prod.mk.injEq] at h
      obtain ⟨rfl, _⟩ := h
      exact F s.value false hv (by simp) (fun h => h)
    | none =>
      simp only at h
      split at h
      · next hc =>
        simp only [Option.some.injEq, Prod.mk.injEq] at h
        obtain ⟨rfl, _⟩ := h
        refine F _ true (fun w hw' => ?_) (by simp) (by simp)
        simp only [Option.some.injEq] at hw'
        subst hw'
        cases hval : s.value with
        | none =>
          simp only
          exact ⟨by simp [Arr.ofSize, Arr.WF], by simp [Arr.ofSize, Arr.size]⟩
        | some w =>
          simp only
          obtain ⟨a1, a2⟩ := hv w hval
          have r1 : w.reset.WF := by unfold Arr.WF Arr.reset at *; simpa using a1
          have r2 : w.reset.size = n := by unfold Arr.size Arr.reset at *; simpa using a2
          rw [if_neg (by omega)]
          exact ⟨r1, r2⟩
      · simp only [Option.some.injEq, Prod.mk.injEq] at h
        obtain ⟨rfl, _⟩ := h
        exact F s.value false hv (by simp) (fun h => h)
  · rw [if_neg h0] at h
    simp only [Option.some.injEq, Prod.mk.injEq] at h
    obtain ⟨rfl, _⟩ := h
    have f := hs (by omega)
    exact ⟨f.hasSize, f.max, f.value, f.saved, f.known, f.savedKnown, f.kept⟩

theorem step_fit {n : Nat} {d : α} {s s' : ArrVar α} {p : Bool} (hs : Fit n s) (o : ArrOp α) (hw : o.WF) (hz : o.sized n)
    (h : s.step d o = some (s', p)) : Fit n s' := by
  cases o with
  | deactivate =>
    simp only [ArrVar.step, ArrVar.deactivate, Option.some.injEq, Prod.mk.injEq] at h
    obtain ⟨rfl, _⟩ := h
    exact ⟨hs.hasSize, hs.max, hs.value, hs.saved, hs.known, hs.savedKnown, hs.kept⟩
  | setUnknown =>
    simp only [ArrVar.step, ArrVar.setUnknown, Option.some.injEq, Prod.mk.injEq] at h
    obtain ⟨rfl, _⟩ := h
    exact ⟨hs.hasSize, hs.max, hs.value, hs.saved, by simp, hs.savedKnown, hs.kept⟩
  | set v =>
    cases v with
    | some a => exact setImpl_fit hs hw h
    | none =>
      simp only [ArrVar.step, ArrVar.set, ArrVar.setUnknown, Option.some.injEq, Prod.mk.injEq] at h
      obtain ⟨rfl, _⟩ := h
      exact ⟨hs.hasSize, hs.max, hs.value, hs.saved, by simp, hs.savedKnown, hs.kept⟩
  | save =>
    simp only [ArrVar.step, ArrVar.save, Option.some.injEq, Prod.mk.injEq] at h
    obtain ⟨rfl, _⟩ := h
    refine ⟨hs.hasSize, hs.max, hs.value, fun w hw' => ?_, hs.known, ?_, ?_⟩
    · simp only at hw'
      split at hw'
      · exact hs.value w hw'
      · exact hs.saved w hw'
    · intro hk
      simp only at hk ⊢
      rw [if_pos hk]
      exact hs.known hk
    · simp only
      split
      · exact fun h => h
      · exact hs.kept
  | restore =>
    simp only [ArrVar.step, ArrVar.restore, Option.some.injEq] at h
    split at h
    · next hc =>
      simp only [Prod.mk.injEq] at h
      obtain ⟨rfl, _⟩ := h
      simp only [Bool.and_eq_true] at hc
      exact ⟨hs.hasSize, hs.max, hs.saved, hs.saved, fun _ => hs.savedKnown hc.1.2, hs.savedKnown, fun h => h⟩
    · next hc =>
      simp only [Prod.mk.injEq] at h
      obtain ⟨rfl, _⟩ := h
      exact ⟨hs.hasSize, hs.max, hs.value, hs.saved, fun hk => hs.kept (hs.savedKnown hk), hs.savedKnown, hs.kept⟩
  | setElement i v => exact setElement_step_fit hs h
  | setElementUnknown i =>
    obtain ⟨_, h | ⟨hk, w, w', hv, hu, rfl⟩⟩ := setElementUnknown_cases h
    · rw [h.1]; exact hs
    · exact ⟨hs.hasSize, hs.max, fun u hu' => by cases hu'; exact setUnknown_fit (hs.value w hv) hu, hs.saved, by simp, hs.savedKnown, by simp⟩
  | activate z i =>
    simp only [ArrOp.sized] at hz
    subst hz
    exact activate_fit hw hs.hasSize (fun _ => hs) hs.value hs.saved hs.savedKnown hs.kept h

theorem run_fit {n : Nat} {d : α} (os : List (ArrOp α)) : ∀ {s s' : ArrVar α}, Fit n s → (∀ o ∈ os, o.WF ∧ o.sized n) →
    s.run d os = some s' → Fit n s' := by
  induction os with
  | nil => intro s s' hs _ h; simp only [ArrVar.run, Option.some.injEq] at h; rw [← h]; exact hs
  | cons o os ih =>
    intro s s' hs ho h
    unfold ArrVar.run at h
    split at h
    · next t p ht => exact ih (step_fit hs o (ho o (by simp)).1 (ho o (by simp)).2 ht) (fun o' h' => ho o' (List.mem_cons_of_mem _ h')) h
    · simp at h

/-- A new variable after its first activation. -/
theorem first_fit {n : Nat} {d : α} {i : Option (Option (Arr α))} {s : ArrVar α} {p : Bool} (hw : (ArrOp.activate (some (n : Int)) i).WF)
    (h : (ArrVar.new true).activate d (some (n : Int)) i = some (s, p)) : Fit n s :=
  activate_fit hw rfl (fun h => by simp [ArrVar.new] at h) (by simp [ArrVar.new]) (by simp [ArrVar.new]) (by simp [ArrVar.new])
    (by simp [ArrVar.new]) h

/-- **C52.** An array variable whose declared size is the constant `n` has exactly `n` elements whenever its value is known, after
every history of operations since it was first activated; longer arrays are refused with a plan error. -/
theorem c52_size_partial (n : Nat) (d : α) (i : Option (Option (Arr α))) (os : List (ArrOp α)) (s : ArrVar α)
    (hw : ∀ o ∈ ArrOp.activate (some (n : Int)) i :: os, o.WF ∧ o.sized n)
    (h : (ArrVar.new true).run d (.activate (some (n : Int)) i :: os) = some s) :
    (∀ a, s.get = some a → a.size = n) ∧ ∀ a : Arr α, n < a.size → s.set d (some a) = none := by
  have F : Fit n s := by
    unfold ArrVar.run at h
    split at h
    · next t p ht =>
      exact run_fit os (first_fit (hw _ (by simp)).1 ht) (fun o ho => hw o (List.mem_cons_of_mem _ ho)) h
    · simp at h
  refine ⟨fun a ha => ?_, fun a ha => ?_⟩
  · unfold ArrVar.get at ha
    split at ha
    · exact (F.value a ha).2
    · simp at ha
  · simp only [ArrVar.set]
    rw [setImpl_eq, F.hasSize, F.max]
    simp [ha]

/-- **C52 fails** if the declared size is not constant: activated again with a smaller size, and without an initializer, the variable
keeps its old length (`ArrayVariable.cc:153-158`). -/
theorem c52_size_shrinks (d : α) : ∃ s : ArrVar α, (ArrVar.new true).run d [.activate (some 5) none, .deactivate, .activate (some 2) none] = some s ∧
    s.maxSize = 2 ∧ ∃ a, s.get = some a ∧ a.size = 5 := by
  refine ⟨_, rfl, rfl, _, rfl, rfl⟩

/-- **C52.** After an assignment the variable holds the elements assigned, and unknown ones up to its declared size. -/
theorem c52_set (d : α) (s s' : ArrVar α) (a : Arr α) (p : Bool) (ha : a.WF) (hact : s.active = true) (h : s.set d (some a) = some (s', p)) :
    ∃ w, s'.get = some w ∧ w.size = max a.size s.maxSize ∧ ∀ j, w.getElement j = a.getElement j := by
  simp only [ArrVar.set] at h
  rw [setImpl_eq] at h
  split at h
  · simp at h
  · simp only [Option.some.injEq, Prod.mk.injEq] at h
    obtain ⟨rfl, _⟩ := h
    refine ⟨pad d s.maxSize a, ?_, ?_, fun j => pad_get ha d _ j⟩
    · unfold ArrVar.get ArrVar.active at *
      simp only
      rw [hact]; rfl
    · unfold pad
      split
      · rw [(C28_resize_get a ha d s.maxSize 0).2]; omega
      · omega

/-- **C52.** What the first activation makes of an array variable, whatever was left in it by earlier activations: the elements of the
initializer; unknown, if the initializer is unknown; otherwise, if it has a declared size other than 0, an array without any known element. -/
theorem c52_activated (d : α) (s s' : ArrVar α) (n : Option Int) (i : Option (Option (Arr α))) (p : Bool) (h0 : s.count = 0)
    (hv : ∀ w, s.value = some w → w.WF) (hi : (ArrOp.activate n i).WF) (h : s.activate d n i = some (s', p)) :
    match i with
    | some (some a) => ∃ w, s'.get = some w ∧ ∀ j, w.getElement j = a.getElement j
    | some none => s'.get = none
    | none => if s.hasSize = true ∧ 0 < s'.maxSize then ∃ w, s'.get = some w ∧ ∀ j, w.getElement j = none else s'.get = none := by
  unfold ArrVar.activate at h
  rw [if_pos h0] at h
  dsimp only at h
  split at h
  · simp at h
  · next t ht =>
    have hts : t.hasSize = s.hasSize ∧ t.value = s.value ∧ t.count = 1 := by
      unfold ArrVar.evalSize at ht
      split at ht
      · split at ht
        · split at ht
          · simp at ht
          · simp only [Option.some.injEq] at ht; subst ht; exact ⟨rfl, rfl, by simp [h0]⟩
        · simp only [Option.some.injEq] at ht; subst ht; exact ⟨rfl, rfl, by simp [h0]⟩
      · simp only [Option.some.injEq] at ht; subst ht; exact ⟨rfl, rfl, by simp [h0]⟩
    obtain ⟨t1, t2, t3⟩ := hts
    match i with
    | some (some a) =>
      simp only at h ⊢
      split at h
      · simp at h
      · rw [setImpl_eq] at h
        split at h
        · simp at h
        · simp only [Option.some.injEq, Prod.mk.injEq] at h
          obtain ⟨rfl, _⟩ := h
          refine ⟨pad d t.maxSize a, ?_, fun j => pad_get hi d _ j⟩
          simp [ArrVar.get, ArrVar.active, t3]
    | some none =>
      simp only [Option.some.injEq, Prod.mk.injEq] at h ⊢
      obtain ⟨rfl, _⟩ := h
      simp [ArrVar.get]
    | none =>
      simp only at h ⊢
      split at h
      · next hc =>
        simp only [Option.some.injEq, Prod.mk.injEq] at h
        obtain ⟨rfl, _⟩ := h
        simp only [Bool.and_eq_true, decide_eq_true_eq] at hc
        rw [if_pos ⟨by rw [← t1]; exact hc.1, hc.2⟩]
        refine ⟨_, by simp [ArrVar.get, ArrVar.active, t3]; rfl, fun j => ?_⟩
        split
        · next w hw =>
          have hwf : w.WF := hv w (by rw [← t2]; exact hw)
          have hr := (C28_fresh_reset_list d 0 w [] j).2.1
          split
          · have hr' := (C28_resize_get w.reset (C28_invariant d 0 [] w hwf 0 d none).2.2.2.2.2.1 d t.maxSize j).1
            rw [hr', hr]; simp
          · exact hr
        · exact (C28_fresh_reset_list d t.maxSize (Arr.ofSize d 0) [] j).1
      · next hc =>
        simp only [Option.some.injEq, Prod.mk.injEq] at h
        obtain ⟨rfl, _⟩ := h
        simp only [Bool.and_eq_true, decide_eq_true_eq] at hc
        rw [if_neg (by rw [← t1]; exact hc)]
        simp [ArrVar.get]

/-- **C52.** Setting one element changes that element and no other; beyond the end it changes nothing. -/
theorem c52_set_element (s s' : ArrVar α) (w : Arr α) (i : Nat) (v : Option α) (p : Bool) (hg : s.get = some w) (hw : w.WF)
    (h : s.setElement i v = some (s', p)) :
    ∃ w', s'.get = some w' ∧ w'.WF ∧ w'.size = w.size ∧
      ∀ j, w'.getElement j = if j = i ∧ i < w.size then v else w.getElement j := by
  unfold ArrVar.get at hg
  split at hg
  · next hk =>
    obtain ⟨u, hu, hc⟩ := setElement_cases h
    rw [hg] at hu
    cases hu
    rcases hc with ⟨rfl, _, hv⟩ | ⟨x, rfl, _, rfl, _⟩ | ⟨w', rfl, hne, hun, rfl, _⟩
    · refine ⟨w, by unfold ArrVar.get; rw [if_pos hk, hg], hw, rfl, fun j => ?_⟩
      split
      · next h' => rw [h'.1, hv]
      · rfl
    · have hf := setElement_fit (i := i) (x := x) ⟨hw, rfl⟩
      exact ⟨w.setElement i x, by unfold ArrVar.get ArrVar.active at *; rw [if_pos hk], hf.1, hf.2, fun j => C28_set_get w hw i j x⟩
    · have hf := setUnknown_fit ⟨hw, rfl⟩ hun
      refine ⟨w', by unfold ArrVar.get ArrVar.active at *; rw [if_pos hk], hf.1, hf.2, fun j => ?_⟩
      rw [C28_unknown_get w w' i j hun]
      have hi : i < w.size := by
        unfold Arr.setElementUnknown at hun
        split at hun
        · assumption
        · simp at hun
      simp [hi]
  · simp at hg

theorem reading_of_value {s t : ArrVar α} (h1 : s.count = t.count) (h2 : s.known = t.known) (h3 : s.value = t.value) : s.reading = t.reading := by
  unfold ArrVar.reading ArrVar.get ArrVar.active; rw [h1, h2, h3]

/-- **C52.** Every operation but deactivation and `setElementUnknown` calls the listeners if it changes what can be read.  (A known value has
at least the declared size: without a declared size that is no condition, with a constant one it is `c52_size_partial`.) -/
theorem c52_change_published_partial (d : α) (s s' : ArrVar α) (o : ArrOp α) (p : Bool)
    (hm : ∀ w, s.get = some w → s.maxSize ≤ w.size) (hd : o ≠ .deactivate)
    (hu : ∀ i, o ≠ .setElementUnknown i) (h : s.step d o = some (s', p)) (hc : s'.reading ≠ s.reading) : p = true := by
  have hinact : s.active = false → s.reading = none := by
    intro h; unfold ArrVar.reading ArrVar.get; simp [h]
  have hact : s'.count = s.count → s.active = true := by
    intro he
    cases ha : s.active with
    | true => rfl
    | false =>
      exfalso
      apply hc
      rw [hinact ha]
      unfold ArrVar.active at ha
      unfold ArrVar.reading ArrVar.get ArrVar.active
      rw [he, ha]; rfl
  have setI : ∀ (t t' : ArrVar α) (a : Arr α) (p : Bool), t.setImpl d a = some (t', p) → t'.count = t.count := by
    intro t t' a p h
    rw [setImpl_eq] at h
    split at h
    · simp at h
    · simp only [Option.some.injEq, Prod.mk.injEq] at h
      rw [← h.1]
  cases o with
  | deactivate => exact absurd rfl hd
  | setElementUnknown i => exact absurd rfl (hu i)
  | save =>
    exfalso; apply hc
    simp only [ArrVar.step, ArrVar.save, Option.some.injEq, Prod.mk.injEq] at h
    obtain ⟨rfl, _⟩ := h
    exact reading_of_value rfl rfl rfl
  | setUnknown =>
    simp only [ArrVar.step, ArrVar.setUnknown, Option.some.injEq, Prod.mk.injEq] at h
    obtain ⟨rfl, rfl⟩ := h
    rw [hact rfl, Bool.and_true]
    cases hk : s.known with
    | true => rfl
    | false => exact absurd (reading_of_value (s := { s with known := false }) (t := s) rfl hk.symm rfl) hc
  | set v =>
    cases v with
    | none =>
      simp only [ArrVar.step, ArrVar.set, ArrVar.setUnknown, Option.some.injEq, Prod.mk.injEq] at h
      obtain ⟨rfl, rfl⟩ := h
      rw [hact rfl, Bool.and_true]
      cases hk : s.known with
      | true => rfl
      | false => exact absurd (reading_of_value (s := { s with known := false }) (t := s) rfl hk.symm rfl) hc
    | some a =>
      simp only [ArrVar.step, ArrVar.set] at h
      have hcnt := setI s s' a p h
      have ha := hact hcnt
      rw [setImpl_eq] at h
      split at h
      · simp at h
      · simp only [Option.some.injEq, Prod.mk.injEq] at h
        obtain ⟨rfl, rfl⟩ := h
        rw [ha, Bool.and_true]
        cases hk : s.known with
        | false => rfl
        | true =>
          simp only [Bool.not_true, Bool.false_or, decide_eq_true_eq]
          intro hv
          apply hc
          refine reading_of_value rfl hk.symm ?_
          simp only
          rw [hv, pad, if_neg]
          have := hm a (by unfold ArrVar.get; rw [ha, hk, hv]; rfl)
          omega
  | setElement i v =>
    simp only [ArrVar.step] at h
    obtain ⟨w, hv, ⟨rfl, _, _⟩ | ⟨x, _, _, rfl, rfl⟩ | ⟨w', _, _, _, rfl, rfl⟩⟩ := setElement_cases h
    · exact absurd rfl hc
    · exact hact rfl
    · exact hact rfl
  | restore =>
    simp only [ArrVar.step, ArrVar.restore, Option.some.injEq] at h
    split at h
    · simp only [Prod.mk.injEq] at h
      obtain ⟨rfl, rfl⟩ := h
      exact hact rfl
    · simp only [Prod.mk.injEq] at h
      obtain ⟨rfl, rfl⟩ := h
      rw [hact rfl, Bool.and_true, decide_eq_true_eq]
      intro hk
      exact hc (reading_of_value rfl hk.symm rfl)
  | activate z i =>
    simp only [ArrVar.step] at h
    unfold ArrVar.activate at h
    by_cases h0 : s.count = 0
    · rw [if_pos h0] at h
      have hr : s.reading = none := hinact (by unfold ArrVar.active; rw [h0]; rfl)
      have hr' : s'.known = false → s'.reading = none := by
        intro h; unfold ArrVar.reading ArrVar.get; simp [h]
      have evC : ∀ t t' : ArrVar α, t.evalSize z = some t' → t'.count = t.count := by
        intro t t' he
        unfold ArrVar.evalSize at he
        split at he
        · split at he
          · split at he
            · simp at he
            · cases he; rfl
          · cases he; rfl
        · cases he; rfl
      cases he : ArrVar.evalSize { s with count := s.count + 1 } z with
      | none => simp only [he] at h; simp at h
      | some t =>
        have htc : t.count = s.count + 1 := evC _ t he
        simp only [he] at h
        match i with
        | some (some a) =>
          simp only at h
          split at h
          · simp at h
          · rw [setImpl_eq] at h
            split at h
            · simp at h
            · simp only [Option.some.injEq, Prod.mk.injEq] at h
              rw [← h.2]
              simp [ArrVar.active, htc]
        | some none =>
          simp only [Option.some.injEq, Prod.mk.injEq] at h
          obtain ⟨rfl, rfl⟩ := h
          exact absurd ((hr' rfl).trans hr.symm) hc
        | none =>
          simp only at h
          split at h
          · simp only [Option.some.injEq, Prod.mk.injEq] at h
            exact h.2.symm
          · simp only [Option.some.injEq, Prod.mk.injEq] at h
            obtain ⟨rfl, rfl⟩ := h
            exact absurd ((hr' rfl).trans hr.symm) hc
    · rw [if_neg h0] at h
      simp only [Option.some.injEq, Prod.mk.injEq] at h
      obtain ⟨rfl, rfl⟩ := h
      exfalso
      apply hc
      have : 0 < s.count := by omega
      simp [ArrVar.reading, ArrVar.get, ArrVar.active, this]

/-- **C52 fails** for `setElementUnknown`: it makes an element unknown and tells nobody (`ArrayVariable.cc:286-291`). -/
theorem c52_element_unknown_silent (d : α) (s : ArrVar α) (w : Arr α) (i : Nat) (x : α) (hg : s.get = some w) (hx : w.getElement i = some x) :
    ∃ s' w', s.step d (.setElementUnknown i) = some (s', false) ∧ s'.get = some w' ∧ w'.getElement i = none := by
  unfold ArrVar.get at hg
  split at hg
  · next hk =>
    have hk' := hk
    rw [Bool.and_eq_true] at hk'
    have hi : i < w.size := by
      unfold Arr.getElement at hx
      split at hx
      · assumption
      · simp at hx
    have hu : w.setElementUnknown i = some { w with known := w.known.set i false } := by
      unfold Arr.setElementUnknown; rw [if_pos hi]
    refine ⟨{ s with value := some { w with known := w.known.set i false } }, { w with known := w.known.set i false }, ?_, ?_, ?_⟩
    · simp only [ArrVar.step, ArrVar.setElementUnknown, hk'.2, hg, hu, if_true]
    · unfold ArrVar.get ArrVar.active at *; rw [if_pos hk]
    · have := C28_unknown_get w _ i i hu
      simpa using this
  · simp at hg

/-! ### Saving and restoring -/

/-- The operations by which a value is changed. -/
def ArrOp.write : ArrOp α → Prop
  | .set _ | .setUnknown | .setElement _ _ | .setElementUnknown _ => True
  | _ => False

theorem write_keeps {d : α} {s s' : ArrVar α} {o : ArrOp α} {p : Bool} (ho : o.write) (h : s.step d o = some (s', p)) :
    s'.saved = s.saved ∧ s'.savedKnown = s.savedKnown ∧ s'.count = s.count := by
  cases o with
  | activate z i => exact ho.elim
  | deactivate => exact ho.elim
  | save => exact ho.elim
  | restore => exact ho.elim
  | setUnknown =>
    simp only [ArrVar.step, ArrVar.setUnknown, Option.some.injEq, Prod.mk.injEq] at h
    obtain ⟨rfl, _⟩ := h; exact ⟨rfl, rfl, rfl⟩
  | set v =>
    cases v with
    | none =>
      simp only [ArrVar.step, ArrVar.set, ArrVar.setUnknown, Option.some.injEq, Prod.mk.injEq] at h
      obtain ⟨rfl, _⟩ := h; exact ⟨rfl, rfl, rfl⟩
    | some a =>
      simp only [ArrVar.step, ArrVar.set] at h
      rw [setImpl_eq] at h
      split at h
      · simp at h
      · simp only [Option.some.injEq, Prod.mk.injEq] at h
        obtain ⟨rfl, _⟩ := h; exact ⟨rfl, rfl, rfl⟩
  | setElement i v =>
    obtain ⟨w, hv, ⟨rfl, _, _⟩ | ⟨x, _, _, rfl, _⟩ | ⟨w', _, _, _, rfl, _⟩⟩ := setElement_cases h <;> exact ⟨rfl, rfl, rfl⟩
  | setElementUnknown i =>
    obtain ⟨_, ⟨rfl, _⟩ | ⟨_, w, w', _, _, rfl⟩⟩ := setElementUnknown_cases h <;> exact ⟨rfl, rfl, rfl⟩

theorem writes_keep {d : α} (os : List (ArrOp α)) : ∀ {s s' : ArrVar α}, (∀ o ∈ os, o.write) → s.run d os = some s' →
    s'.saved = s.saved ∧ s'.savedKnown = s.savedKnown ∧ s'.count = s.count := by
  induction os with
  | nil => intro s s' _ h; simp only [ArrVar.run, Option.some.injEq] at h; rw [h]; exact ⟨rfl, rfl, rfl⟩
  | cons o os ih =>
    intro s s' ho h
    unfold ArrVar.run at h
    split at h
    · next t p ht =>
      obtain ⟨a1, a2, a3⟩ := write_keeps (ho o (by simp)) ht
      obtain ⟨b1, b2, b3⟩ := ih (fun o' h' => ho o' (List.mem_cons_of_mem _ h')) h
      exact ⟨b1.trans a1, b2.trans a2, b3.trans a3⟩
    · simp at h

/-- **C52.** Restoring brings the saved value back after any writes, if the value is known when restored or was unknown when saved. -/
theorem c52_restore_partial (d : α) (s t : ArrVar α) (os : List (ArrOp α)) (ho : ∀ o ∈ os, o.write)
    (h : s.save.1.run d os = some t) (hk : s.known = false ∨ t.known = true) : t.restore.1.get = s.get := by
  obtain ⟨h1, h2, h3⟩ := writes_keep os ho h
  simp only [ArrVar.save] at h1 h2 h3
  unfold ArrVar.restore
  cases hs : s.known with
  | false =>
    rw [hs] at h2
    simp [h2, ArrVar.get, hs]
  | true =>
    rw [hs] at h1 h2 hk
    simp only [if_true, Bool.true_eq_false, false_or] at h1 hk
    rw [h2, hk]
    by_cases hv : t.value = t.saved
    · simp only [hv, ne_eq, not_true_eq_false, decide_false, Bool.and_false, Bool.false_eq_true, if_false]
      unfold ArrVar.get ArrVar.active
      rw [h3, hs]
      simp only [hv, h1]
    · simp only [Bool.and_true, ne_eq, hv, not_false_eq_true, decide_true, if_true]
      unfold ArrVar.get ArrVar.active
      rw [h3, hs]
      simp only [h1]

/-- **C52.** One write, of any kind, is undone by saving before and restoring after: what an Assignment node and its retraction do. -/
theorem c52_round_trip (d : α) (s t : ArrVar α) (o : ArrOp α) (p : Bool) (ho : o.write) (h : s.save.1.step d o = some (t, p)) :
    t.restore.1.get = s.get := by
  have hr : s.save.1.run d [o] = some t := by simp [ArrVar.run, h]
  have ho' : ∀ o' ∈ [o], o'.write := by simpa using ho
  cases hs : s.known with
  | false => exact c52_restore_partial d s t [o] ho' hr (.inl hs)
  | true =>
    cases ht : t.known with
    | true => exact c52_restore_partial d s t [o] ho' hr (.inr ht)
    | false =>
      -- it was made unknown: the contents are still there
      obtain ⟨h1, h2, h3⟩ := write_keeps ho h
      have hv : t.value = s.value := by
        cases o with
        | activate z i => exact ho.elim
        | deactivate => exact ho.elim
        | save => exact ho.elim
        | restore => exact ho.elim
        | setUnknown =>
          simp only [ArrVar.step, ArrVar.setUnknown, Option.some.injEq, Prod.mk.injEq] at h
          rw [← h.1]; rfl
        | set v =>
          cases v with
          | none =>
            simp only [ArrVar.step, ArrVar.set, ArrVar.setUnknown, Option.some.injEq, Prod.mk.injEq] at h
            rw [← h.1]; rfl
          | some a =>
            simp only [ArrVar.step, ArrVar.set] at h
            rw [setImpl_eq] at h
            split at h
            · simp at h
            · simp only [Option.some.injEq, Prod.mk.injEq] at h
              rw [← h.1] at ht; simp at ht
        | setElement i v =>
          obtain ⟨w, hv, ⟨rfl, _, _⟩ | ⟨x, _, _, rfl, _⟩ | ⟨w', _, _, _, rfl, _⟩⟩ := setElement_cases h
          · rfl
          · simp [ArrVar.save, hs] at ht
          · simp [ArrVar.save, hs] at ht
        | setElementUnknown i =>
          obtain ⟨_, ⟨rfl, _⟩ | ⟨_, w, w', _, _, rfl⟩⟩ := setElementUnknown_cases h
          · rfl
          · simp [ArrVar.save, hs] at ht
      simp only [ArrVar.save] at h1 h2 h3
      unfold ArrVar.restore
      rw [ht, h2, hs]
      simp only [Bool.false_and, Bool.false_eq_true, if_false]
      unfold ArrVar.get ArrVar.active
      rw [h3, hs]
      simp only [hv]

/-- **C52 fails** for two writes the second of which makes the value unknown: restoring brings back the first write, not the saved value
(`ArrayVariable.cc:698-707` looks at the contents only if the present value is known). -/
theorem c52_restore_wrong (d : α) (s : ArrVar α) (a b : Arr α) (hs : s.get = some a) (hb : s.maxSize ≤ b.size)
    (hb' : s.hasSize = true → b.size = s.maxSize) :
    ∃ t, s.save.1.run d [.set (some b), .setUnknown] = some t ∧ t.restore.1.get = some b := by
  unfold ArrVar.get at hs
  split at hs
  · next hk =>
    rw [Bool.and_eq_true] at hk
    cases s with
    | mk hasSize maxSize value known saved savedKnown count =>
    simp only [ArrVar.active] at hk hb hb' hs
    have hp : pad d maxSize b = b := by unfold pad; rw [if_neg (by omega)]
    have hk2 : known = true := hk.2
    subst hk2
    refine ⟨⟨hasSize, maxSize, some b, false, value, true, count⟩, ?_, ?_⟩
    · simp only [ArrVar.run, ArrVar.step, ArrVar.set]
      rw [setImpl_eq, if_neg]
      · simp only [ArrVar.save, ArrVar.setUnknown, hp, if_true]
      · simp only [ArrVar.save, Bool.and_eq_true, decide_eq_true_eq, not_and]
        intro h; have := hb' h; omega
    · simp only [ArrVar.restore, ArrVar.get, ArrVar.active]
      simp at hk
      simp [hk]
  · simp at hs

/-! ## Elements as assignment targets -/

theorem ref_set_some {s s' : ArrVar α} {i : Int} {v : Option α} {p : Bool} {w : Arr α} (hg : s.get = some w)
    (h : Ref.set s (some i) v = some (s', p)) : 0 ≤ i ∧ s.setElement i.toNat v = some (s', p) := by
  have hk : (s.active && s.known) = true := by
    unfold ArrVar.get at hg
    split at hg
    · assumption
    · simp at hg
  unfold Ref.set ArrVar.check at h
  rw [if_pos hk] at h
  simp only at h
  split at h
  · next hc => split at hc <;> simp at hc; simp at h
  · next hc => split at hc <;> simp at hc
  · next hc =>
    split at hc
    · simp at hc
    · next hlt => cases hc; exact ⟨by omega, h⟩

/-- **C53.** Assigning to an element of a known array changes that element and no other, reading it back gives the value assigned;
beyond the end nothing changes; a negative index is a plan error. -/
theorem c53_write (s s' : ArrVar α) (i : Int) (v : Option α) (p : Bool) (w : Arr α) (hw : w.WF) (hg : s.get = some w)
    (h : Ref.set s (some i) v = some (s', p)) :
    0 ≤ i ∧ ∃ w', s'.get = some w' ∧ w'.size = w.size ∧
      (∀ j : Nat, w'.getElement j = if (j : Int) = i ∧ j < w.size then v else w.getElement j) ∧
      (i < w.size → Ref.read s' (some i) = some v) := by
  obtain ⟨h0, h1⟩ := ref_set_some hg h
  obtain ⟨w', a1, _, a2, a3⟩ := c52_set_element s s' w i.toNat v p hg hw h1
  have a4 : ∀ j : Nat, w'.getElement j = if (j : Int) = i ∧ j < w.size then v else w.getElement j := by
    intro j
    rw [a3 j]
    by_cases hj : j = i.toNat
    · subst hj
      have : ((i.toNat : Nat) : Int) = i := by omega
      simp [this]
    · have : ¬ (j : Int) = i := by omega
      simp [hj, this]
  refine ⟨h0, w', a1, a2, a4, fun hi => ?_⟩
  have hi' : i.toNat < w.size := by omega
  unfold Ref.read
  simp only [a1, a2]
  rw [if_neg (by omega), if_pos hi', a4]
  have : ((i.toNat : Nat) : Int) = i := by omega
  simp [this, hi']

/-- An array as a function. -/
theorem getElement_inj {v w : Arr α} (h1 : v.size = w.size) (h2 : ∀ j, v.getElement j = w.getElement j) :
    (v.size, v.getElement) = (w.size, w.getElement) := by
  rw [h1, funext h2]

/-- **C53.** If the index is the same all along, an assignment to an element and its retraction leave the array as it was, every element. -/
theorem c53_round_trip_partial (s s' s'' : ArrVar α) (r r' r'' : Ref α) (ix : Option Int) (v : Option α) (p p' : Bool)
    (hw : ∀ w, s.get = some w → w.WF) (hsave : r.save s ix = some r') (hset : Ref.set s ix v = some (s', p))
    (hrest : r'.restore s' ix = some (r'', s'', p')) : s''.reading = s.reading := by
  have same : ∀ t : ArrVar α, t.check ix = some none → Ref.set t ix v = some (s', p) → s' = t := by
    intro t hc h; unfold Ref.set at h; rw [hc] at h; simp only [Option.some.injEq, Prod.mk.injEq] at h; exact h.1.symm
  cases hc : s.check ix with
  | none => unfold Ref.set at hset; rw [hc] at hset; simp at hset
  | some o =>
    cases o with
    | none =>
      have e := same s hc hset
      subst e
      unfold Ref.restore at hrest
      rw [hc] at hrest
      simp only [Option.some.injEq, Prod.mk.injEq] at hrest
      rw [hrest.2.1]
    | some i =>
      -- the array is known
      have hk : (s.active && s.known) = true := by
        unfold ArrVar.check at hc
        split at hc
        · assumption
        · simp at hc
      have hset' : s.setElement i v = some (s', p) := by
        unfold Ref.set at hset; rw [hc] at hset; exact hset
      obtain ⟨w, hv, _⟩ := setElement_cases hset'
      have hg : s.get = some w := by unfold ArrVar.get; rw [if_pos hk, hv]
      have hwf := hw w hg
      obtain ⟨w', b1, b2, b3, b4⟩ := c52_set_element s s' w i v p hg hwf hset'
      have hk' : (s'.active && s'.known) = true := by
        unfold ArrVar.get at b1
        split at b1
        · assumption
        · simp at b1
      have hc' : s'.check ix = some (some i) := by
        unfold ArrVar.check at hc ⊢
        rw [if_pos hk] at hc
        rw [if_pos hk']
        exact hc
      have hr' : r' = ⟨w.getElement i, true⟩ := by
        unfold Ref.save at hsave
        rw [hc] at hsave
        simp only [hg, Option.bind_some, Option.some.injEq] at hsave
        exact hsave.symm
      unfold Ref.restore at hrest
      rw [hc', hr'] at hrest
      simp only [if_true, b1, Option.bind_some] at hrest
      have fin : ∀ u : Arr α, u.size = w.size → (∀ j, u.getElement j = w.getElement j) → s''.get = some u → s''.reading = s.reading := by
        intro u h1 h2 h3
        unfold ArrVar.reading
        rw [h3, hg]
        simp only [Option.map_some]
        rw [getElement_inj h1 h2]
      split at hrest
      · next hne =>
        cases hre : s'.setElement i (w.getElement i) with
        | none => rw [hre] at hrest; simp at hrest
        | some q =>
          obtain ⟨t, b⟩ := q
          rw [hre] at hrest
          simp only [Option.some.injEq, Prod.mk.injEq] at hrest
          obtain ⟨_, rfl, _⟩ := hrest
          obtain ⟨u, c1, c2, c3, c4⟩ := c52_set_element s' t w' i _ b b1 b2 hre
          refine fin u (c3.trans b3) (fun j => ?_) c1
          rw [c4 j]
          split
          · next hj => rw [hj.1]
          · next hj =>
            rw [b4 j]
            rw [b3] at hj
            rw [if_neg hj]
      · next hne =>
        simp only [Option.some.injEq, Prod.mk.injEq] at hrest
        obtain ⟨_, rfl, _⟩ := hrest
        refine fin w' b3 (fun j => ?_) b1
        rw [b4 j]
        split
        · next hj =>
          simp only [ne_eq, Decidable.not_not] at hne
          rw [hj.1, hne, b4 i]
          simp [hj.2]
        · rfl

/-- **C53 fails** if the index changes between an assignment and its retraction: the saved element is written where the index now points,
and the assigned element stays. -/
theorem c53_index_moved (s s' s'' : ArrVar α) (r r' r'' : Ref α) (i k : Nat) (v : Option α) (p p' : Bool) (w : Arr α) (hg : s.get = some w) (hw : w.WF)
    (hi : i < w.size) (hk : k < w.size) (hik : i ≠ k) (hsave : r.save s (some i) = some r') (hset : Ref.set s (some i) v = some (s', p))
    (hrest : r'.restore s' (some k) = some (r'', s'', p')) :
    ∃ w'', s''.get = some w'' ∧ w''.getElement i = v ∧ w''.getElement k = w.getElement i := by
  obtain ⟨_, h1⟩ := ref_set_some hg hset
  have e1 : ((i : Nat) : Int).toNat = i := by omega
  have e2 : ((k : Nat) : Int).toNat = k := by omega
  rw [e1] at h1
  obtain ⟨w', b1, b2, b3, b4⟩ := c52_set_element s s' w i v p hg hw h1
  have act : ∀ {t : ArrVar α} {u}, t.get = some u → (t.active && t.known) = true := by
    intro t u h
    unfold ArrVar.get at h
    split at h
    · assumption
    · simp at h
  have hr' : r' = ⟨w.getElement i, true⟩ := by
    unfold Ref.save ArrVar.check at hsave
    rw [if_pos (act hg)] at hsave
    simp only [show ¬ ((i : Int) < 0) by omega, if_false, e1, hg, Option.bind_some, Option.some.injEq] at hsave
    exact hsave.symm
  unfold Ref.restore ArrVar.check at hrest
  rw [if_pos (act b1)] at hrest
  simp only [show ¬ ((k : Int) < 0) by omega, if_false, e2, hr', if_true, b1, Option.bind_some] at hrest
  split at hrest
  · next hne =>
    cases hre : s'.setElement k (w.getElement i) with
    | none => rw [hre] at hrest; simp at hrest
    | some q =>
      obtain ⟨t, b⟩ := q
      rw [hre] at hrest
      simp only [Option.some.injEq, Prod.mk.injEq] at hrest
      obtain ⟨_, rfl, _⟩ := hrest
      obtain ⟨u, c1, c2, c3, c4⟩ := c52_set_element s' t w' k _ b b1 b2 hre
      refine ⟨u, c1, ?_, ?_⟩
      · rw [c4 i, if_neg (fun h => hik h.1), b4 i, if_pos ⟨rfl, hi⟩]
      · rw [c4 k, if_pos ⟨rfl, by omega⟩]
  · next hne =>
    simp only [Option.some.injEq, Prod.mk.injEq] at hrest
    obtain ⟨_, rfl, _⟩ := hrest
    simp only [ne_eq, Decidable.not_not] at hne
    refine ⟨w', b1, ?_, hne.symm⟩
    rw [b4 i, if_pos ⟨rfl, hi⟩]

/-! ## The assignments of one step -/

/-- Does this assignment leave the index variable `k` and the array alone? -/
def Asg.apart (k : Nat) : Asg α → Prop
  | .int m _ => m ≠ k
  | .elem _ _ => False

theorem perform_apart {k : Nat} (as : List (Asg α)) : ∀ {st st' : Store α}, (∀ a ∈ as, a.apart k) → st.perform as = some st' →
    st'.ints k = st.ints k ∧ st'.arr = st.arr := by
  induction as with
  | nil => intro st st' _ h; simp only [Store.perform, Option.some.injEq] at h; rw [h]; exact ⟨rfl, rfl⟩
  | cons a as ih =>
    intro st st' ha h
    unfold Store.perform at h
    split at h
    · next t ht =>
      obtain ⟨b1, b2⟩ := ih (fun x hx => ha x (List.mem_cons_of_mem _ hx)) h
      have hap := ha a (by simp)
      cases a with
      | elem m v => exact hap.elim
      | int m v =>
        simp only [Store.exec, Option.some.injEq] at ht
        subst ht
        refine ⟨b1.trans ?_, b2⟩
        have : ¬ k = m := fun h => hap h.symm
        simp [this]
    · simp at h

theorem perform_append (as bs : List (Asg α)) : ∀ st : Store α, st.perform (as ++ bs) = (st.perform as).bind fun t => t.perform bs := by
  induction as with
  | nil => intro st; rfl
  | cons a as ih =>
    intro st
    simp only [List.cons_append, Store.perform]
    split
    · exact ih _
    · rfl

/-- **C54.** Of the assignments performed in one step, one to an array element writes the element its index designated when the step began,
provided no other assignment of the step writes the index variable or the array. -/
theorem c54_designated_element_partial (st st' : Store α) (pre post : List (Asg α)) (k i : Nat) (v : Option α) (w : Arr α)
    (hpre : ∀ a ∈ pre, a.apart k) (hpost : ∀ a ∈ post, a.apart k) (hix : (st.ints k).get = some (i : Int)) (hg : st.arr.get = some w) (hw : w.WF)
    (hi : i < w.size) (h : st.perform (pre ++ .elem k v :: post) = some st') :
    ∃ w', st'.arr.get = some w' ∧ ∀ j, w'.getElement j = if j = i then v else w.getElement j := by
  rw [perform_append] at h
  cases h1 : st.perform pre with
  | none => rw [h1] at h; simp at h
  | some t =>
    rw [h1] at h
    simp only [Option.bind_some] at h
    obtain ⟨a1, a2⟩ := perform_apart pre hpre h1
    unfold Store.perform at h
    split at h
    · next u hu =>
      obtain ⟨_, b2⟩ := perform_apart post hpost h
      simp only [Store.exec, Option.map_eq_some_iff] at hu
      obtain ⟨⟨x, p⟩, hx, rfl⟩ := hu
      rw [a1, a2, hix] at hx
      obtain ⟨_, w', c1, _, c3, _⟩ := c53_write st.arr x (i : Int) v p w hw hg hx
      refine ⟨w', by rw [b2]; exact c1, fun j => ?_⟩
      rw [c3 j]
      by_cases hj : j = i
      · subst hj; simp [hi]
      · have : ¬ (j : Int) = (i : Int) := by omega
        simp [hj, this]
    · simp at h

/-- **C54 fails** otherwise: if an assignment to the index variable is performed earlier in the same step, the element written is the one the new
index designates, not the one designated when the assigning node started. -/
theorem c54_index_assigned_first (st st' : Store α) (k i i' : Nat) (v : Option α) (w : Arr α) (hact : (st.ints k).active = true)
    (hg : st.arr.get = some w) (hw : w.WF) (hi' : i' < w.size) (hne : i ≠ i') (_ : (st.ints k).get = some (i : Int))
    (h : st.perform [.int k (some (i' : Int)), .elem k v] = some st') :
    ∃ w', st'.arr.get = some w' ∧ w'.getElement i' = v ∧ w'.getElement i = w.getElement i := by
  unfold Store.perform at h
  simp only [Store.exec] at h
  unfold Store.perform at h
  split at h
  · next u hu =>
    simp only [Store.perform, Option.some.injEq] at h
    subst h
    simp only [Store.exec, Option.map_eq_some_iff, if_true] at hu
    obtain ⟨⟨x, p⟩, hx, rfl⟩ := hu
    have hget : ((st.ints k).set (some (i' : Int))).1.get = some (i' : Int) := by
      simp only [Scalar.set, Scalar.setImpl, Scalar.get]
      unfold Scalar.active at hact ⊢
      simp only at hact ⊢
      rw [hact]; rfl
    rw [hget] at hx
    obtain ⟨_, w', c1, _, c3, _⟩ := c53_write st.arr x (i' : Int) v p w hw hg hx
    refine ⟨w', c1, ?_, ?_⟩
    · rw [c3 i']; simp [hi']
    · rw [c3 i]
      have : ¬ (i : Int) = (i' : Int) := by omega
      simp [this]
  · simp at h

/-! ## Examples: the hypotheses can be met -/

example : ((Scalar.new 3 4).run [.activate (some (some 1)), .save, .set (some 2), .restore]).get = some 1 := by decide

example : ∃ s, (ArrVar.new true).run 0 [.activate (some 3) (some (some (Arr.ofList [1, 2]))), .save, .setElement 0 (some 9), .restore] = some s ∧
    s.get = some ⟨[true, true, false], [1, 2, 0]⟩ := ⟨_, rfl, rfl⟩

/-- Two integer variables and an array of three; `i := 2` is performed before `a[i] := 9`. -/
example :
    let st : Store Nat := ⟨fun _ => ⟨0, true, 0, true, 1⟩, ⟨true, 3, some (Arr.ofList [5, 6, 7]), true, none, false, 1⟩⟩
    (∃ st', st.perform [.int 0 (some 2), .elem 0 (some 9)] = some st' ∧ st'.arr.get = some (Arr.ofList [5, 6, 9])) ∧
    (∃ st', st.perform [.elem 0 (some 9), .int 0 (some 2)] = some st' ∧ st'.arr.get = some (Arr.ofList [9, 6, 7])) := by
  exact ⟨⟨_, rfl, rfl⟩, ⟨_, rfl, rfl⟩⟩

/-- The round trip of an element, and what happens if the index moves from 0 to 1 in between. -/
example :
    let s : ArrVar Nat := ⟨true, 3, some (Arr.ofList [5, 6, 7]), true, none, false, 1⟩
    (∃ r s' q, (Ref.mk none false).save s (some 0) = some r ∧ Ref.set s (some 0) (some 9) = some s' ∧ r.restore s'.1 (some 0) = some q ∧
      q.2.1.get = some (Arr.ofList [5, 6, 7])) ∧
    (∃ r s' q, (Ref.mk none false).save s (some 0) = some r ∧ Ref.set s (some 0) (some 9) = some s' ∧ r.restore s'.1 (some 1) = some q ∧
      q.2.1.get = some (Arr.ofList [9, 5, 7])) := by
  exact ⟨⟨_, _, _, rfl, rfl, rfl, rfl⟩, ⟨_, _, _, rfl, rfl, rfl, rfl⟩⟩

/-- **C53.** If the index or the array is unknown when the value before an assignment should be kept, nothing is kept: a retraction, whatever array and index then are, changes nothing. -/
theorem c53_nothing_kept (r r' r'' : Ref α) (s s' s'' : ArrVar α) (ix ix' : Option Int) (p : Bool) (hu : ix = none ∨ s.get = none ∧ s.known = false)
    (hs : r.save s ix = some r') (hr : r'.restore s' ix' = some (r'', s'', p)) : s'' = s' ∧ p = false := by
  have hc : s.check ix = some none := by
    unfold ArrVar.check
    rcases hu with rfl | ⟨_, hk⟩
    · split <;> rfl
    · simp [hk]
  unfold Ref.save at hs
  rw [hc] at hs
  simp only [Option.some.injEq] at hs
  subst hs
  unfold Ref.restore at hr
  split at hr
  · simp at hr
  · simp only [Option.some.injEq, Prod.mk.injEq] at hr; exact ⟨hr.2.1.symm, hr.2.2.symm⟩
  · simp only [Bool.false_eq_true, if_false, Option.some.injEq, Prod.mk.injEq] at hr; exact ⟨hr.2.1.symm, hr.2.2.symm⟩

end Verif.Var
