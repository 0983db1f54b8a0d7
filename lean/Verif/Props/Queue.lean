import Verif.Queue.Lemmas
/-
Property theorems about the intrusive queues: C21 (LinkedQueue is a FIFO list), C22 (`insert_after`),
C13 (priority order with first-come-first-served ties).
-/
namespace Verif.Props.Queue
open Verif.Queue

/-! ## Specification: any number of queues over one population of items, as plain lists -/

/-- Operations a client performs on the `k`-th queue. -/
inductive Op
  | push (k : Nat) (x : Item)
  | insert (k : Nat) (x : Item)          -- priority queue insertion
  | pop (k : Nat)
  | remove (k : Nat) (x : Item)
  | removeIf (k : Nat) (p : Item → Bool)
  | findIf (k : Nat) (p : Item → Bool)
  | clear (k : Nat)

/-- What an operation returns. -/
abbrev Ret := Option Item

/-- Abstract state: each queue is a list. -/
abbrev Lists := Nat → List Item

def upd {α} (f : Nat → α) (k : Nat) (v : α) : Nat → α := fun i => if i = k then v else f i

/-- The abstract queue behaviour. `before x y`: x has strictly higher precedence than y. -/
def specStep (before : Item → Item → Bool) (ls : Lists) : Op → Lists × Ret
  | .push k x => (upd ls k (ls k ++ [x]), none)
  | .insert k x =>
    (upd ls k ((ls k).takeWhile (fun c => !before x c) ++ x :: (ls k).dropWhile (fun c => !before x c)), none)
  | .pop k => (upd ls k (ls k).tail, none)
  | .remove k x => (upd ls k ((ls k).erase x), none)
  | .removeIf k p => (upd ls k ((ls k).eraseP p), (ls k).find? p)
  | .findIf k p => (ls, (ls k).find? p)
  | .clear k => (upd ls k [], none)

/-- The client obligation: an item may be added to a queue only while it is in no queue. -/
def Legal (ls : Lists) : Op → Prop
  | .push _ x => ∀ k, x ∉ ls k
  | .insert _ x => ∀ k, x ∉ ls k
  | _ => True

/-! ## Implementation -/

/-- All queues share the `next` fields of the items. -/
structure Impl where
  heap : Heap
  qs : Nat → LQ

/-- Run an operation of the code. `fuel` bounds traversals; see `C21_refinement`. -/
def implStep (fuel : Nat) (before : Item → Item → Bool) (s : Impl) : Op → Except Err (Impl × Ret)
  | .push k x => do let (h, q) ← push s.heap (s.qs k) x; .ok (⟨h, upd s.qs k q⟩, none)
  | .insert k x => do let (h, q) ← pqInsert fuel before s.heap (s.qs k) x; .ok (⟨h, upd s.qs k q⟩, none)
  | .pop k => do let (h, q) ← pop s.heap (s.qs k); .ok (⟨h, upd s.qs k q⟩, none)
  | .remove k x => do let (h, q) ← remove fuel s.heap (s.qs k) (some x); .ok (⟨h, upd s.qs k q⟩, none)
  | .removeIf k p => do let (h, q, r) ← removeIf fuel p s.heap (s.qs k); .ok (⟨h, upd s.qs k q⟩, r)
  | .findIf k p => do let r ← findIf p s.heap fuel (s.qs k).head; .ok (s, r)
  | .clear k => do let (h, q) ← clear fuel s.heap (s.qs k); .ok (⟨h, upd s.qs k q⟩, none)

def init : Impl := ⟨fun _ => none, fun _ => {}⟩

/-- Everything a client can observe agrees with the lists: first item, size, emptiness, iteration. -/
def Observes (s : Impl) (ls : Lists) : Prop :=
  ∀ k, (s.qs k).front = (ls k).head? ∧ (s.qs k).size = (ls k).length ∧ ((s.qs k).empty = true ↔ ls k = []) ∧
    ∀ fuel, (ls k).length ≤ fuel → iterate s.heap fuel (s.qs k).head = .ok (ls k)

/-- A run of the specification: every operation legal when issued. -/
inductive SpecRun (before : Item → Item → Bool) : Lists → List Op → List Ret → Lists → Prop
  | nil (ls) : SpecRun before ls [] [] ls
  | cons {ls op ops rs ls'} : Legal ls op → SpecRun before (specStep before ls op).1 ops rs ls' →
      SpecRun before ls (op :: ops) ((specStep before ls op).2 :: rs) ls'

/-- A run of the code. -/
def implRun (fuel : Nat) (before : Item → Item → Bool) (s : Impl) : List Op → Except Err (Impl × List Ret)
  | [] => .ok (s, [])
  | op :: ops => do
    let (s, r) ← implStep fuel before s op
    let (s, rs) ← implRun fuel before s ops
    .ok (s, r :: rs)

/-! ## Invariant -/

structure Inv (s : Impl) (ls : Lists) : Prop where
  rep : ∀ k, Rep s.heap (s.qs k) (ls k)
  disj : ∀ j k, j ≠ k → ∀ x ∈ ls j, x ∉ ls k
  free : ∀ x, (∀ k, x ∉ ls k) → s.heap x = none

theorem Inv.init : Inv init (fun _ => []) :=
  ⟨fun _ => ⟨rfl, rfl, rfl, by simp⟩, by simp, fun _ _ => rfl⟩

theorem Rep.frame {h h' : Heap} {q l} (hr : Rep h q l) (he : ∀ x ∈ l, h' x = h x) : Rep h' q l :=
  ⟨Chain.congr he hr.chain, hr.tail, hr.count, hr.nodup⟩

/-- Common part: queue `k` changes from `ls k` to `l'`, where `l'` keeps a subset of the old items plus at most
items that were free. -/
theorem Inv.update {s : Impl} {ls : Lists} (hi : Inv s ls) {k : Nat} {h' : Heap} {q' : LQ} {l' : List Item}
    (hrep : Rep h' q' l')
    (hframe : ∀ j, j ≠ k → ∀ x ∈ ls j, h' x = s.heap x)
    (hnew : ∀ x ∈ l', x ∈ ls k ∨ ∀ j, x ∉ ls j)
    (hfree : ∀ x, x ∉ l' → (∀ j, j ≠ k → x ∉ ls j) → h' x = none) :
    Inv ⟨h', upd s.qs k q'⟩ (upd ls k l') := by
  refine ⟨?_, ?_, ?_⟩
  · intro j
    by_cases hj : j = k
    · subst hj; simpa [upd] using hrep
    · simp only [upd, hj, if_false]
      exact Rep.frame (hi.rep j) (hframe j hj)
  · intro i j hij x hx
    simp only [upd] at hx ⊢
    by_cases hi' : i = k
    · subst hi'
      have hj : ¬ j = i := fun e => hij e.symm
      simp only [if_true] at hx
      simp only [hj, if_false]
      rcases hnew x hx with h | h
      · exact hi.disj i j hij x h
      · exact h j
    · simp only [hi', if_false] at hx
      by_cases hj : j = k
      · subst hj
        simp only [if_true]
        intro hm
        rcases hnew x hm with h | h
        · exact hi.disj i j hij x hx h
        · exact h i hx
      · simp only [hj, if_false]
        exact hi.disj i j hij x hx
  · intro x hx
    apply hfree x
    · have := hx k; simpa [upd] using this
    · intro j hj; have := hx j; simpa [upd, hj] using this

theorem step_refines (before : Item → Item → Bool) (s : Impl) (ls : Lists) (hi : Inv s ls) (op : Op)
    (hl : Legal ls op) (fuel : Nat) (hf : ∀ k, (ls k).length ≤ fuel) :
    ∃ s', implStep fuel before s op = .ok (s', (specStep before ls op).2) ∧ Inv s' (specStep before ls op).1 := by
  have other : ∀ k j, j ≠ k → ∀ x ∈ ls j, x ∉ ls k := fun k j hj x hx => hi.disj j k hj x hx
  cases op with
  | push k x =>
    obtain ⟨h', q', he, hr, hfr, hx⟩ := push_rep (hi.rep k) (hl k) (hi.free x hl)
    refine ⟨_, by simp only [implStep, he]; rfl, hi.update hr ?_ ?_ ?_⟩
    · intro j hj y hy; exact hfr y (other k j hj y hy) (fun e => hl j (e ▸ hy))
    · intro y hy
      rw [List.mem_append] at hy
      rcases hy with hy | hy
      · exact .inl hy
      · simp at hy; subst hy; exact .inr hl
    · intro y hy hyo
      have hyk : y ∉ ls k ∧ y ≠ x := by simpa [not_or] using hy
      rw [hfr y hyk.1 hyk.2]
      apply hi.free
      intro j; by_cases hj : j = k
      · subst hj; exact hyk.1
      · exact hyo j hj
  | insert k x =>
    obtain ⟨h', q', he, hr, hfr⟩ := pqInsert_rep before fuel (hi.rep k) (hl k) (hi.free x hl) (hf k)
    have hmem : ∀ y, y ∈ insertBefore before x (ls k) ↔ y = x ∨ y ∈ ls k := by
      intro y
      have : ls k = (ls k).takeWhile (fun c => !before x c) ++ (ls k).dropWhile (fun c => !before x c) :=
        List.takeWhile_append_dropWhile.symm
      unfold insertBefore
      conv => rhs; rw [this]
      simp only [List.mem_append, List.mem_cons]
      constructor
      · rintro (h | h | h) <;> simp [h]
      · rintro (h | h | h) <;> simp [h]
    refine ⟨_, by simp only [implStep, he]; rfl, hi.update hr ?_ ?_ ?_⟩
    · intro j hj y hy; exact hfr y (other k j hj y hy) (fun e => hl j (e ▸ hy))
    · intro y hy
      rcases (hmem y).mp hy with rfl | hy
      · exact .inr hl
      · exact .inl hy
    · intro y hy hyo
      have hyk : y ≠ x ∧ y ∉ ls k := by
        have hy : y ∉ insertBefore before x (ls k) := hy
        rw [hmem] at hy; simpa [not_or] using hy
      rw [hfr y hyk.2 hyk.1]
      apply hi.free
      intro j; by_cases hj : j = k
      · subst hj; exact hyk.2
      · exact hyo j hj
  | pop k =>
    obtain ⟨h', q', he, hr, hfr, hx⟩ := pop_rep (hi.rep k)
    refine ⟨_, by simp only [implStep, he]; rfl, hi.update hr ?_ ?_ ?_⟩
    · intro j hj y hy; exact hfr y (other k j hj y hy)
    · intro y hy; exact .inl (List.mem_of_mem_tail hy)
    · intro y hy hyo
      by_cases hyk : y ∈ ls k
      · cases hlk : ls k with
        | nil => simp [hlk] at hyk
        | cons a l =>
          rw [hlk] at hy hyk
          simp at hy hyk
          rcases hyk with rfl | hyk
          · exact hx _ (by simp [hlk])
          · exact absurd hyk hy
      · rw [hfr y hyk]
        apply hi.free
        intro j; by_cases hj : j = k
        · subst hj; exact hyk
        · exact hyo j hj
  | remove k x =>
    obtain ⟨h', q', he, hr, hfr, hx⟩ := remove_rep x fuel (hi.rep k) (hf k)
    refine ⟨_, by simp only [implStep, he]; rfl, hi.update hr ?_ ?_ ?_⟩
    · intro j hj y hy; exact hfr y (other k j hj y hy)
    · intro y hy; exact .inl (List.mem_of_mem_erase hy)
    · intro y hy hyo
      by_cases hyk : y ∈ ls k
      · by_cases hyx : y = x
        · subst hyx; exact hx hyk
        · exact absurd ((List.mem_erase_of_ne hyx).mpr hyk) hy
      · rw [hfr y hyk]
        apply hi.free
        intro j; by_cases hj : j = k
        · subst hj; exact hyk
        · exact hyo j hj
  | removeIf k p =>
    obtain ⟨h', q', he, hr, hfr, hx⟩ := removeIf_rep p fuel (hi.rep k) (hf k)
    refine ⟨_, by simp only [implStep, he]; rfl, hi.update hr ?_ ?_ ?_⟩
    · intro j hj y hy; exact hfr y (other k j hj y hy)
    · intro y hy; exact .inl (List.mem_of_mem_eraseP hy)
    · intro y hy hyo
      by_cases hyk : y ∈ ls k
      · by_cases hpy : ∃ z ∈ ls k, p z = true
        · obtain ⟨z, hz, hpz⟩ := hpy
          obtain ⟨a, l₁, l₂, h1, h2, h3, h4⟩ := List.exists_of_eraseP hz hpz
          have hfd : (ls k).find? p = some a := by
            rw [h3, List.find?_append]
            have : l₁.find? p = none := by simpa using h1
            simp [this, h2]
          rw [h3] at hyk; rw [h4] at hy
          simp only [List.mem_append, List.mem_cons] at hyk hy
          have : y = a := by
            rcases hyk with h | h | h
            · exact absurd (.inl h) hy
            · exact h
            · exact absurd (.inr h) hy
          subst this
          exact hx _ hfd
        · rw [List.eraseP_of_forall_not (by intro z hz hp; exact hpy ⟨z, hz, hp⟩)] at hy
          exact absurd hyk hy
      · rw [hfr y hyk]
        apply hi.free
        intro j; by_cases hj : j = k
        · subst hj; exact hyk
        · exact hyo j hj
  | findIf k p =>
    refine ⟨s, ?_, hi⟩
    simp only [implStep, findIf_rep p (ls k) (s.qs k).head fuel (hi.rep k).chain (hf k)]; rfl
  | clear k =>
    obtain ⟨h', q', he, hr, hfr, hx⟩ := clear_rep fuel (hi.rep k) (hf k)
    refine ⟨_, by simp only [implStep, he]; rfl, hi.update hr ?_ ?_ ?_⟩
    · intro j hj y hy; exact hfr y (other k j hj y hy)
    · intro y hy; simp at hy
    · intro y hy hyo
      by_cases hyk : y ∈ ls k
      · exact hx y hyk
      · rw [hfr y hyk]
        apply hi.free
        intro j; by_cases hj : j = k
        · subst hj; exact hyk
        · exact hyo j hj

theorem Inv.observes {s ls} (hi : Inv s ls) : Observes s ls := by
  intro k
  have hh := (hi.rep k).chain.head_eq
  refine ⟨hh, (hi.rep k).count, ?_, ?_⟩
  · simp only [LQ.empty]; rw [hh]; cases ls k <;> simp
  · intro fuel hf; exact iterate_rep _ _ _ (hi.rep k).chain hf

/-- Length of every queue along a run grows by at most one per operation. -/
theorem spec_len (before : Item → Item → Bool) (ls : Lists) (op : Op) (n : Nat) (h : ∀ k, (ls k).length ≤ n) :
    ∀ k, ((specStep before ls op).1 k).length ≤ n + 1 := by
  intro j
  cases op with
  | push k x => have := h j; have := h k; simp only [specStep, upd]; split <;> simp <;> omega
  | insert k x =>
    have := h j; have hk := h k
    have e : ((ls k).takeWhile (fun c => !before x c)).length + ((ls k).dropWhile (fun c => !before x c)).length
        = (ls k).length := by
      rw [← List.length_append, List.takeWhile_append_dropWhile]
    simp only [specStep, upd]; split <;> simp <;> omega
  | pop k => have := h j; have := h k; simp only [specStep, upd]; split <;> simp <;> omega
  | remove k x =>
    have := h j; have := h k; have := List.length_erase_le (a := x) (l := ls k)
    simp only [specStep, upd]; split <;> omega
  | removeIf k p =>
    have := h j; have := h k; have := List.length_eraseP_le (p := p) (l := ls k)
    simp only [specStep, upd]; split <;> omega
  | findIf k p => have := h j; simp only [specStep]; omega
  | clear k => have := h j; simp only [specStep, upd]; split <;> simp; omega

/-- The same with the representation exposed. -/
theorem refines_inv (before : Item → Item → Bool) (ops : List Op) (rs : List Ret) (ls : Lists)
    (hrun : SpecRun before (fun _ => []) ops rs ls) (fuel : Nat) (hf : ops.length ≤ fuel) :
    ∃ s, implRun fuel before init ops = .ok (s, rs) ∧ Inv s ls := by
  suffices H : ∀ (ls₀ : Lists) (s₀ : Impl) (n : Nat), Inv s₀ ls₀ → (∀ k, (ls₀ k).length ≤ n) → n + ops.length ≤ fuel →
      SpecRun before ls₀ ops rs ls → ∃ s, implRun fuel before s₀ ops = .ok (s, rs) ∧ Inv s ls from
    H _ _ 0 Inv.init (by simp) (by omega) hrun
  intro ls₀ s₀ n hi hn hle hr
  clear hrun hf
  induction hr generalizing s₀ n with
  | nil ls => exact ⟨s₀, rfl, hi⟩
  | cons hl _ ih =>
    rename_i ls₁ op ops rs ls' _
    simp only [List.length_cons] at hle
    obtain ⟨s', he, hi'⟩ := step_refines before s₀ ls₁ hi op hl fuel (fun k => by have := hn k; omega)
    obtain ⟨s, hs, hi''⟩ := ih s' (n + 1) hi' (spec_len before ls₁ op n hn) (by omega)
    refine ⟨s, ?_, hi''⟩
    simp only [implRun, he]
    show (do let (s, rs) ← implRun fuel before s' ops; Except.ok (s, _ :: rs)) = _
    rw [hs]; rfl

/-- C21 (and C13's mechanism). Any history of legal operations on any number of queues sharing items runs without
an assertion failure, null dereference, counter underflow or endless traversal, returns what the list
specification returns, and ends in a state in which front, size, emptiness and iteration order of every
queue are those of the lists. -/
theorem C21_refinement (before : Item → Item → Bool) (ops : List Op) (rs : List Ret) (ls : Lists)
    (hrun : SpecRun before (fun _ => []) ops rs ls) (fuel : Nat) (hf : ops.length ≤ fuel) :
    ∃ s, implRun fuel before init ops = .ok (s, rs) ∧ Observes s ls := by
  obtain ⟨s, h1, h2⟩ := refines_inv before ops rs ls hrun fuel hf
  exact ⟨s, h1, h2.observes⟩

/-- Non-vacuity: items move between a plain queue and a priority queue. -/
example : SpecRun (fun a b => decide (a < b)) (fun _ => [])
    [.push 0 5, .push 0 3, .pop 0, .insert 1 5, .insert 1 2] [none, none, none, none, none]
    (specStep (fun a b => decide (a < b)) (specStep (fun a b => decide (a < b)) (specStep (fun a b => decide (a < b))
      (specStep (fun a b => decide (a < b)) (specStep (fun a b => decide (a < b)) (fun _ => []) (.push 0 5)).1
      (.push 0 3)).1 (.pop 0)).1 (.insert 1 5)).1 (.insert 1 2)).1 := by
  refine .cons (by simp [Legal]) (.cons ?_ (.cons trivial (.cons ?_ (.cons ?_ (.nil _)))))
  · intro k; simp only [specStep, upd]; split <;> simp
  · intro k; simp only [specStep, upd]; split <;> (try split) <;> simp
  · intro k; simp only [specStep, upd]; split <;> (try split) <;> (try split) <;> simp

/-- Without the client obligation the structure breaks: pushing the last item of a queue a second time passes
the code's own assertion (its `next` is null) and makes the chain cyclic, so iteration never ends. -/
theorem C21_double_push_cycles :
    ∃ s, implRun 0 (fun _ _ => false) init [.push 0 7, .push 0 7] = .ok (s, [none, none]) ∧
      ∀ fuel, iterate s.heap fuel (s.qs 0).head = .error .fuel := by
  refine ⟨_, rfl, ?_⟩
  intro fuel
  suffices ∀ fuel, iterate (Heap.set (Heap.set (Heap.set (fun _ => none) 7 none) 7 none) 7 (some 7)) fuel (some 7) = .error .fuel from this fuel
  intro fuel
  induction fuel with
  | zero => rfl
  | succ n ih =>
    unfold iterate
    rw [set_same, ih]
    rfl

/-! ## C22 insert_after -/

/-- C22 is false of the code: inserting behind the last item leaves the queue without a tail, and the next `push`
dereferences null. The specification result would be the three-item queue `[1, 2, 3]`. -/
theorem C22_insert_after_tail_breaks :
    ∃ h q h' q', push (fun _ => none) {} 1 = .ok (h, q) ∧ insertAfter h q (some 1) 2 = .ok (h', q') ∧
      q'.tail = none ∧ q'.head = some 1 ∧ push h' q' 3 = .error .nullDeref := by
  refine ⟨_, _, _, _, rfl, rfl, rfl, rfl, rfl⟩

/-- C22, what goes wrong, for every queue: inserting behind the last item gives the right items, and the right number of them, but there is no tail any more, so that the next `push` dereferences null. -/
theorem C22_insert_after_last_refuted (h : Heap) (q : LQ) (l : List Item) (p x y : Item) (hr : Rep h q (l ++ [p])) (hx : x ∉ l ++ [p])
    (hy : y ∉ l ++ [p, x]) (hfree : h y = none) :
    ∃ h' q', insertAfter h q (some p) x = .ok (h', q') ∧ Chain h' q'.head (l ++ [p, x]) ∧ q'.count = l.length + 2 ∧ q'.tail = none ∧
      push h' q' y = .error .nullDeref := by
  have hs := Chain.split l hr.chain
  have hp : h p = none := hs.2
  have hx' : x ∉ l ∧ x ≠ p := by simpa [not_or] using hx
  have hy' : y ∉ l ∧ y ≠ p ∧ y ≠ x := by simpa [not_or] using hy
  have hc := Chain.append (h := h) (p := q.head) (l := l ++ [p]) x hr.nodup hr.chain hx (by simp)
  have e : (h.set p (some x)).set x none = (h.set x none).set p (some x) := by
    funext z
    simp only [Heap.set]
    by_cases h1 : z = x
    · subst h1; simp [hx'.2]
    · simp [h1]
  have hhead : q.head = (l ++ [p]).head? := hr.chain.head_eq
  refine ⟨(h.set p (some x)).set x none, { q with tail := none, count := q.count + 1 }, by simp only [insertAfter, hp], ?_, ?_, rfl, ?_⟩
  · rw [e]; simpa using hc
  · have := hr.count; simp at this ⊢; omega
  · have hyn : ((h.set p (some x)).set x none) y = none := by rw [set_other _ _ hy'.2.2, set_other _ _ hy'.2.1, hfree]
    have : ∃ a, q.head = some a := by rw [hhead]; cases l <;> simp
    obtain ⟨a, ha⟩ := this
    simp [push, hyn, ha]

/-- C22. Full statement: for every queue, `insert_after(it, x)` yields the list with `x` right behind `it`.
Missing: `it` the last item (see above). Proved: `it` null (append) or any other item. -/
theorem C22_insert_after_partial (h : Heap) (q : LQ) (l₁ l₂ : List Item) (p c x : Item)
    (hr : Rep h q (l₁ ++ p :: c :: l₂)) (hx : x ∉ l₁ ++ p :: c :: l₂) :
    ∃ h' q', insertAfter h q (some p) x = .ok (h', q') ∧ Rep h' q' (l₁ ++ p :: x :: c :: l₂) := by
  have hs := Chain.split l₁ hr.chain
  have hpc : h p = some c := hs.2.1
  have hx' : x ∉ l₁ ++ [p] ∧ x ≠ c ∧ x ∉ l₂ := by
    simp [not_or] at hx ⊢; exact ⟨⟨hx.1, hx.2.1⟩, hx.2.2.1, hx.2.2.2⟩
  have hxp : x ≠ p := by intro e; subst e; simp at hx
  have hc := Chain.insert (l₁ ++ [p]) l₂ x c (by simpa using hr.nodup) (by simpa using hx) (by simpa using hr.chain)
  simp only [List.getLast?_concat] at hc
  have heap_eq : ((h.set p (some x)).set x (h p)) = ((h.set x (some c)).set p (some x)) := by
    funext y
    simp only [Heap.set, hpc]
    by_cases h1 : y = x
    · subst h1; simp [hxp]
    · simp [h1]
  refine ⟨(h.set p (some x)).set x (h p), { q with count := q.count + 1 }, ?_, ⟨?_, ?_, ?_, ?_⟩⟩
  · simp only [insertAfter, hpc]
  · rw [heap_eq]; simpa using hc
  · rw [show q.tail = _ from hr.tail, getLast?_app, getLast?_app]
    simp [List.getLast?_cons_cons]
  · have := hr.count; simp at this ⊢; omega
  · have hp : (x :: (l₁ ++ p :: c :: l₂)).Nodup := List.nodup_cons.mpr ⟨hx, hr.nodup⟩
    have : ((l₁ ++ [p]) ++ x :: (c :: l₂)).Nodup := (List.perm_middle.symm.nodup_iff).mp (by simpa using hp)
    simpa using this

theorem C22_insert_after_null_partial (h : Heap) (q : LQ) (l : List Item) (x : Item)
    (hr : Rep h q l) (hx : x ∉ l) (hfree : h x = none) :
    ∃ h' q', insertAfter h q none x = .ok (h', q') ∧ Rep h' q' (l ++ [x]) := by
  obtain ⟨h', q', he, hrep, _, _⟩ := push_rep hr hx hfree
  exact ⟨h', q', he, hrep⟩

example : Rep (fun x => if x = 1 then some 2 else none) ⟨some 1, some 2, 2⟩ ([] ++ 1 :: 2 :: []) ∧
    (3 : Item) ∉ ([] ++ 1 :: 2 :: [] : List Item) := by
  exact ⟨⟨by simp [Chain], by simp, rfl, by simp⟩, by simp⟩

/-! ## C13 priority order, ties first come first served -/

/-- A client history of one priority queue: arrivals and removals. -/
inductive PqOp
  | arrive (x : Item)
  | leave (x : Item)

/-- Items present, in order of arrival. -/
def present : List PqOp → List Item → List Item
  | [], l => l
  | .arrive x :: ops, l => present ops (l ++ [x])
  | .leave x :: ops, l => present ops (l.erase x)

/-- The same history on the queue specification used in `C21_refinement`, with the executive's comparison
(`PlexilExec.cc:58-64`: smaller priority number first). -/
def queueAfter (prio : Item → Int) : List PqOp → List Item → List Item
  | [], l => l
  | .arrive x :: ops, l => queueAfter prio ops (insertBefore (fun a b => decide (prio a < prio b)) x l)
  | .leave x :: ops, l => queueAfter prio ops (l.erase x)

/-- `x` arrived before `y` in the arrival-ordered list `l`. -/
def arrivedBefore (l : List Item) (x y : Item) : Prop := [x, y].Sublist l

/-- No item arrives while present. -/
def Fresh : List PqOp → List Item → Prop
  | [], _ => True
  | .arrive x :: ops, l => x ∉ l ∧ Fresh ops (l ++ [x])
  | .leave x :: ops, l => Fresh ops (l.erase x)

/-- The order claimed for the waiting queue. -/
def Ordered (prio : Item → Int) (arr q : List Item) : Prop :=
  q.Perm arr ∧ q.Pairwise (fun x y => prio x < prio y ∨ (prio x = prio y ∧ arrivedBefore arr x y))

theorem pairwise_split {r : Item → Item → Prop} (comp : Item → Bool) (l : List Item) (x : Item)
    (hp : l.Pairwise r) (hleft : ∀ a ∈ l.takeWhile comp, r a x) (hright : ∀ b ∈ l.dropWhile comp, r x b) :
    (l.takeWhile comp ++ x :: l.dropWhile comp).Pairwise r := by
  have hp' : (l.takeWhile comp ++ l.dropWhile comp).Pairwise r := by rw [List.takeWhile_append_dropWhile]; exact hp
  rw [List.pairwise_append] at hp' ⊢
  refine ⟨hp'.1, List.pairwise_cons.mpr ⟨hright, hp'.2.1⟩, ?_⟩
  intro a ha b hb
  simp at hb
  rcases hb with rfl | hb
  · exact hleft a ha
  · exact hp'.2.2 a ha b hb

theorem ordered_insert (prio : Item → Int) (arr q : List Item) (x : Item) (h : Ordered prio arr q) :
    Ordered prio (arr ++ [x]) (insertBefore (fun a b => decide (prio a < prio b)) x q) := by
  obtain ⟨hperm, hpw⟩ := h
  refine ⟨?_, ?_⟩
  · unfold insertBefore
    refine List.perm_middle.trans ?_
    rw [List.takeWhile_append_dropWhile]
    refine (List.Perm.cons x hperm).trans ?_
    exact (List.perm_append_comm (l₁ := [x]) (l₂ := arr))
  · have hpw2 : q.Pairwise (fun a b => prio a < prio b ∨ (prio a = prio b ∧ arrivedBefore (arr ++ [x]) a b)) :=
      hpw.imp (fun h => by
        rcases h with h | ⟨h1, h2⟩
        · exact .inl h
        · exact .inr ⟨h1, List.Sublist.trans h2 (List.sublist_append_left _ _)⟩)
    unfold insertBefore
    apply pairwise_split _ _ _ hpw2
    · intro a ha
      have ha' := List.all_eq_true.mp List.all_takeWhile a ha
      simp at ha'
      have hm : a ∈ arr := hperm.subset ((List.takeWhile_sublist _).subset ha)
      by_cases he : prio a < prio x
      · exact .inl he
      · refine .inr ⟨by omega, ?_⟩
        have : [a].Sublist arr := List.singleton_sublist.mpr hm
        exact List.Sublist.append this (List.Sublist.refl [x])
    · intro b hb
      -- the first element of the rest is strictly after x, and the rest is ordered
      cases hd : q.dropWhile (fun c => !decide (prio x < prio c)) with
      | nil => rw [hd] at hb; simp at hb
      | cons c rest =>
        have hc : prio x < prio c := by
          have := List.head_dropWhile_not (fun c => !decide (prio x < prio c)) (l := q) (by rw [hd]; simp)
          simp only [hd, List.head_cons] at this
          simpa using this
        rw [hd] at hb
        simp at hb
        rcases hb with rfl | hb
        · exact .inl hc
        · have hsub : (c :: rest).Pairwise _ := hd ▸ List.Pairwise.sublist (List.dropWhile_sublist _) hpw
          have := (List.pairwise_cons.mp hsub).1 b hb
          left; omega

theorem nodup_perm_erase {arr q : List Item} (x : Item) (h : q.Perm arr) : (q.erase x).Perm (arr.erase x) :=
  h.erase x

theorem ordered_erase (prio : Item → Int) (arr q : List Item) (x : Item) (hn : arr.Nodup) (h : Ordered prio arr q) :
    Ordered prio (arr.erase x) (q.erase x) := by
  obtain ⟨hperm, hpw⟩ := h
  refine ⟨hperm.erase x, ?_⟩
  have hq : q.Nodup := hperm.nodup_iff.mpr hn
  have hsub : (q.erase x).Pairwise (fun x y => prio x < prio y ∨ (prio x = prio y ∧ arrivedBefore arr x y)) :=
    List.Pairwise.sublist List.erase_sublist hpw
  refine List.Pairwise.imp_of_mem ?_ hsub
  intro a b ha hb hab
  rcases hab with h | ⟨h1, h2⟩
  · exact .inl h
  · refine .inr ⟨h1, ?_⟩
    have hax : a ≠ x := fun e => by subst e; exact (hq.not_mem_erase) ha
    have hbx : b ≠ x := fun e => by subst e; exact (hq.not_mem_erase) hb
    have := h2.erase x
    rwa [List.erase_cons_tail (by simpa using hax), List.erase_cons_tail (by simpa using hbx), List.erase_nil] at this

theorem queueAfter_ordered (prio : Item → Int) (ops : List PqOp) (hf : Fresh ops []) :
    (queueAfter prio ops []).Perm (present ops []) ∧
    (queueAfter prio ops []).Pairwise (fun x y =>
      prio x < prio y ∨ (prio x = prio y ∧ arrivedBefore (present ops []) x y)) := by
  suffices H : ∀ (ops : List PqOp) (arr q : List Item), arr.Nodup → Ordered prio arr q → Fresh ops arr →
      Ordered prio (present ops arr) (queueAfter prio ops q) by
    exact H ops [] [] (by simp) ⟨List.Perm.refl _, List.Pairwise.nil⟩ hf
  intro ops
  induction ops with
  | nil => intro arr q _ h _; exact h
  | cons op ops ih =>
    intro arr q hn h hfr
    cases op with
    | arrive x =>
      refine ih _ _ ?_ (ordered_insert prio arr q x h) hfr.2
      rw [List.nodup_append]
      exact ⟨hn, by simp, fun a ha b hb => by simp at hb; subst hb; exact fun e => hfr.1 (e ▸ ha)⟩
    | leave x =>
      exact ih _ _ (hn.sublist List.erase_sublist) (ordered_erase prio arr q x hn h) hfr

example : Fresh [.arrive 1, .arrive 2, .leave 1, .arrive 1] [] ∧
    queueAfter (fun x => if x = 1 then 5 else 5) [.arrive 1, .arrive 2, .leave 1, .arrive 1] [] = [2, 1] := by
  refine ⟨by simp [Fresh], by decide⟩

/-- The calls the executive makes for a history. -/
def toOp : PqOp → Op
  | .arrive x => .insert 0 x
  | .leave x => .remove 0 x

theorem specRun_queueAfter (prio : Item → Int) (ops : List PqOp) :
    ∀ (ls : Lists) (arr : List Item), arr.Nodup → (∀ k, k ≠ 0 → ls k = []) → (ls 0).Perm arr → Fresh ops arr →
    ∃ rs ls', SpecRun (fun a b => decide (prio a < prio b)) ls (ops.map toOp) rs ls' ∧ ls' 0 = queueAfter prio ops (ls 0) := by
  induction ops with
  | nil => intro ls arr _ _ _ _; exact ⟨[], ls, .nil ls, rfl⟩
  | cons op ops ih =>
    intro ls arr hn ho hp hfr
    cases op with
    | arrive x =>
      have hp' : (insertBefore (fun a b => decide (prio a < prio b)) x (ls 0)).Perm (arr ++ [x]) := by
        unfold insertBefore
        refine List.perm_middle.trans ?_
        rw [List.takeWhile_append_dropWhile]
        exact (List.Perm.cons x hp).trans (List.perm_append_comm (l₁ := [x]) (l₂ := arr))
      have hn' : (arr ++ [x]).Nodup := by
        rw [List.nodup_append]
        exact ⟨hn, by simp, fun a ha b hb => by simp at hb; subst hb; exact fun e => hfr.1 (e ▸ ha)⟩
      obtain ⟨rs, ls', h1, h2⟩ := ih (specStep (fun a b => decide (prio a < prio b)) ls (.insert 0 x)).1 (arr ++ [x]) hn'
        (by intro k hk; simp only [specStep, upd, hk, if_false]; exact ho k hk) hp' hfr.2
      refine ⟨_, ls', .cons ?_ h1, h2⟩
      intro k
      by_cases hk : k = 0
      · subst hk; exact fun hm => hfr.1 (hp.subset hm)
      · rw [ho k hk]; simp
    | leave x =>
      obtain ⟨rs, ls', h1, h2⟩ := ih (specStep (fun a b => decide (prio a < prio b)) ls (.remove 0 x)).1 (arr.erase x)
        (hn.sublist List.erase_sublist)
        (by intro k hk; simp only [specStep, upd, hk, if_false]; exact ho k hk) (hp.erase x) hfr
      exact ⟨_, ls', .cons trivial h1, h2⟩

/-- C13. However nodes arrive at and leave the waiting queue, the code runs without error, iterating the queue
visits exactly the present nodes, and one node comes before another only if its priority number is smaller,
or equal and it arrived earlier. -/
theorem C13_priority_fifo (prio : Item → Int) (ops : List PqOp) (hf : Fresh ops []) (fuel : Nat) (hfuel : ops.length ≤ fuel) :
    ∃ s rs l, implRun fuel (fun a b => decide (prio a < prio b)) init (ops.map toOp) = .ok (s, rs) ∧
      (∀ n, l.length ≤ n → iterate s.heap n (s.qs 0).head = .ok l) ∧
      l.Perm (present ops []) ∧
      l.Pairwise (fun x y => prio x < prio y ∨ (prio x = prio y ∧ arrivedBefore (present ops []) x y)) := by
  obtain ⟨rs, ls, hrun, hq⟩ := specRun_queueAfter prio ops (fun _ => []) [] (by simp) (fun _ _ => rfl) (List.Perm.refl _) hf
  obtain ⟨s, hs, hobs⟩ := C21_refinement _ _ _ _ hrun fuel (by simpa using hfuel)
  have ho := queueAfter_ordered prio ops hf
  refine ⟨s, rs, ls 0, hs, (hobs 0).2.2.2, ?_, ?_⟩
  · rw [hq]; exact ho.1
  · rw [hq]; exact ho.2

/-- The number of items that are most urgent. -/
def mostUrgent (prio : Item → Int) (l : List Item) : Nat := l.countP fun x => l.all fun y => decide (prio x ≤ prio y)

theorem frontCountLoop_spec (prio : Item → Int) (h : Heap) : ∀ (l : List Item) (a : Item) (fuel r : Nat), Chain h (h a) l →
    (a :: l).Pairwise (fun x y => prio x ≤ prio y) → l.length ≤ fuel →
    frontCountLoop (fun a b => decide (prio a < prio b)) h fuel a r = .ok (r + l.countP fun x => decide (prio x = prio a)) := by
  intro l
  induction l with
  | nil =>
    intro a fuel r hc _ _
    have : h a = none := hc
    unfold frontCountLoop; simp [this]
  | cons b l ih =>
    intro a fuel r hc hp hf
    obtain ⟨h1, h2⟩ := hc
    have hab : prio a ≤ prio b := by
      have := List.pairwise_cons.1 hp
      exact this.1 b (by simp)
    unfold frontCountLoop
    simp only [h1]
    by_cases hlt : prio a < prio b
    · simp only [hlt, decide_true, if_true]
      have : (b :: l).countP (fun x => decide (prio x = prio a)) = 0 := by
        rw [List.countP_eq_zero]
        intro x hx
        have hbx : prio b ≤ prio x := by
          rcases List.mem_cons.1 hx with rfl | hx
          · exact Int.le_refl _
          · exact (List.pairwise_cons.1 (List.pairwise_cons.1 hp).2).1 x hx
        simp; omega
      rw [this]; rfl
    · have he : prio b = prio a := by omega
      simp only [hlt, decide_false, Bool.false_eq_true, if_false]
      cases fuel with
      | zero => simp at hf
      | succ fuel =>
        simp only
        rw [ih b fuel (r + 1) h2 (List.pairwise_cons.1 hp).2 (by simpa using hf), List.countP_cons, he]
        simp; omega

/-- C13. After any such history, `front_count` is the number of waiting nodes that are most urgent. -/
theorem C13_front_count (prio : Item → Int) (ops : List PqOp) (hf : Fresh ops []) (fuel : Nat) (hfuel : ops.length ≤ fuel) :
    ∃ s rs, implRun fuel (fun a b => decide (prio a < prio b)) init (ops.map toOp) = .ok (s, rs) ∧
      ∀ n, (present ops []).length ≤ n →
        frontCount n (fun a b => decide (prio a < prio b)) s.heap (s.qs 0) = .ok (mostUrgent prio (present ops [])) := by
  obtain ⟨rs, ls, hrun, hq⟩ := specRun_queueAfter prio ops (fun _ => []) [] (by simp) (fun _ _ => rfl) (List.Perm.refl _) hf
  obtain ⟨s, hs, hi⟩ := refines_inv _ _ _ _ hrun fuel (by simpa using hfuel)
  have ho := queueAfter_ordered prio ops hf
  rw [← hq] at ho
  refine ⟨s, rs, hs, ?_⟩
  intro n hn
  have hr := hi.rep 0
  generalize ls 0 = l at *
  have hmu : mostUrgent prio (present ops []) = mostUrgent prio l := by
    unfold mostUrgent
    rw [← ho.1.countP_eq]
    congr 1; funext x
    rw [Bool.eq_iff_iff, List.all_eq_true, List.all_eq_true]
    exact ⟨fun h y hy => h y (ho.1.mem_iff.1 hy), fun h y hy => h y (ho.1.mem_iff.2 hy)⟩
  rw [hmu]
  have hp : l.Pairwise (fun x y => prio x ≤ prio y) := ho.2.imp (fun h => by rcases h with h | h <;> omega)
  have hlen := ho.1.length_eq
  unfold frontCount
  rw [hr.count]
  cases l with
  | nil => simp [mostUrgent]
  | cons a l =>
    have hh : (s.qs 0).head = some a := hr.chain.1
    have hmin : mostUrgent prio (a :: l) = 1 + l.countP fun x => decide (prio x = prio a) := by
      have key : ∀ x ∈ a :: l, ((a :: l).all fun y => decide (prio x ≤ prio y)) = decide (prio x = prio a) := by
        intro x hx
        rw [Bool.eq_iff_iff, List.all_eq_true]
        simp only [decide_eq_true_eq]
        have hax : prio a ≤ prio x := by
          rcases List.mem_cons.1 hx with rfl | hx
          · exact Int.le_refl _
          · exact (List.pairwise_cons.1 hp).1 x hx
        constructor
        · intro h; have := h a (by simp); omega
        · intro h y hy
          rcases List.mem_cons.1 hy with rfl | hy
          · omega
          · have := (List.pairwise_cons.1 hp).1 y hy; omega
      unfold mostUrgent
      rw [List.countP_congr (q := fun x => decide (prio x = prio a)) (fun x hx => by rw [key x hx]), List.countP_cons]
      simp; omega
    rw [hmin]
    by_cases h1 : (a :: l).length ≤ 1
    · have : l = [] := by simpa using h1
      subst this; simp
    · rw [if_neg h1]
      simp only [hh]
      refine frontCountLoop_spec prio _ l a n 1 hr.chain.2 hp ?_
      simp at hlen; omega

/-- Two of three waiting nodes are most urgent. -/
example : Fresh [.arrive 1, .arrive 2, .arrive 3] [] ∧
    mostUrgent (fun x => if x = 2 then 7 else 5) (present [.arrive 1, .arrive 2, .arrive 3] []) = 2 := by
  refine ⟨by simp [Fresh], by decide⟩

end Verif.Props.Queue
