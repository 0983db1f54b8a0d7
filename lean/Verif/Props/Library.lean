import Verif.Library.Spec
import Mathlib.Tactic.ByContra
set_option autoImplicit false
/-! C110 to C112. -/
namespace Verif.Library

section
variable {K V : Type}

/-- Keys strictly increasing. -/
def Sorted (c : Comp K) (l : Store K V) : Prop := l.Pairwise (fun a b => c.lt a.1 b.1 = true)

theorem lowerBound_spec (c : Comp K) (hc : Total c) (l : Store K V) (hs : Sorted c l) (k : K) : ∀ (fuel first len : Nat), len ≤ fuel → first + len ≤ l.length →
    (∀ j e, l[j]? = some e → j < first → c.lt e.1 k = true) → (∀ j e, l[j]? = some e → first + len ≤ j → c.lt e.1 k = false) →
    ∀ j e, l[j]? = some e → (c.lt e.1 k = true ↔ j < lowerBound c l k fuel first len)
  | 0, first, len, hf, hl, h1, h2 => by
    intro j e he
    have : len = 0 := by omega
    subst this
    rw [lowerBound]
    by_cases hj : j < first
    · simp [hj, h1 j e he hj]
    · simp [hj, h2 j e he (by omega)]
  | fuel + 1, first, len, hf, hl, h1, h2 => by
    intro j e he
    rw [lowerBound]
    by_cases h0 : len = 0
    · subst h0
      rw [if_pos rfl]
      by_cases hj : j < first
      · simp [hj, h1 j e he hj]
      · simp [hj, h2 j e he (by omega)]
    · rw [if_neg h0]
      have hlt : first + len / 2 < l.length := by omega
      have hm : l[first + len / 2]? = some l[first + len / 2] := List.getElem?_eq_getElem hlt
      rw [hm]
      have ord : ∀ (i i' : Nat) (a b : K × V), l[i]? = some a → l[i']? = some b → i < i' → c.lt a.1 b.1 = true := by
        intro i i' a b ha hb hii
        obtain ⟨hi, rfl⟩ := List.getElem?_eq_some_iff.1 ha
        obtain ⟨hi', rfl⟩ := List.getElem?_eq_some_iff.1 hb
        exact List.pairwise_iff_getElem.1 hs i i' hi hi' hii
      by_cases hc1 : c.lt l[first + len / 2].1 k = true
      · simp only [hc1, if_true]
        apply lowerBound_spec c hc l hs k fuel _ _ (by omega) (by omega) _ _ j e he
        · intro i a ha hi
          by_cases e1 : i = first + len / 2
          · subst e1; rw [hm] at ha; cases ha; exact hc1
          · exact hc.trans _ _ _ (ord i _ a _ ha hm (by omega)) hc1
        · intro i a ha hi
          exact h2 i a ha (by omega)
      · simp only [hc1, if_false]
        have hc2 : c.lt l[first + len / 2].1 k = false := by simpa using hc1
        apply lowerBound_spec c hc l hs k fuel _ _ (by omega) (by omega) h1 _ j e he
        intro i a ha hi
        by_contra hne
        have hne : c.lt a.1 k = true := by simpa using hne
        by_cases e1 : i = first + len / 2
        · subst e1; rw [hm] at ha; cases ha; rw [hc2] at hne; cases hne
        · have := hc.trans _ _ _ (ord _ i _ a hm ha (by omega)) hne
          rw [hc2] at this; cases this

theorem position_spec (c : Comp K) (hc : Total c) (l : Store K V) (hs : Sorted c l) (k : K) (j : Nat) (e : K × V) (he : l[j]? = some e) :
    c.lt e.1 k = true ↔ j < position c l k := by
  refine lowerBound_spec c hc l hs k l.length 0 l.length (Nat.le_refl _) (by omega) (by intro j e _ h; omega) ?_ j e he
  intro j e he h
  have := (List.getElem?_eq_some_iff.1 he).1
  omega

theorem sorted_keys {c : Comp K} (hc : Total c) {l : Store K V} (hs : Sorted c l) {k : K} {v w : V} (h1 : (k, v) ∈ l) (h2 : (k, w) ∈ l) : v = w := by
  unfold Sorted at hs
  induction l with
  | nil => cases h1
  | cons e l ih =>
    rw [List.pairwise_cons] at hs
    rcases List.mem_cons.1 h1 with rfl | h1' <;> rcases List.mem_cons.1 h2 with h2' | h2'
    · cases h2'; rfl
    · have := hs.1 _ h2'; rw [hc.irrefl] at this; cases this
    · subst h2'; have := hs.1 _ h1'; rw [hc.irrefl] at this; cases this
    · exact ih hs.2 h1' h2'

/-- An entry with the key is at the position found. -/
theorem at_position (c : Comp K) (hc : Total c) (l : Store K V) (hs : Sorted c l) (k : K) (v : V) : (k, v) ∈ l ↔ l[position c l k]? = some (k, v) := by
  constructor
  · intro h
    obtain ⟨j, hj⟩ := List.mem_iff_getElem?.1 h
    have h1 := position_spec c hc l hs k j (k, v) hj
    rw [hc.irrefl] at h1
    have hj1 : position c l k ≤ j := by
      by_contra hlt
      have := h1.2 (by omega)
      cases this
    by_cases e : position c l k = j
    · rw [e]; exact hj
    · exfalso
      have hlen : j < l.length := (List.getElem?_eq_some_iff.1 hj).1
      have hp : l[position c l k]? = some l[position c l k] := List.getElem?_eq_getElem (by omega)
      have h2 := position_spec c hc l hs k _ _ hp
      have h3 : c.lt (l[position c l k]).1 k = true := by
        have := List.pairwise_iff_getElem.1 hs (position c l k) j (by omega) hlen (by omega)
        rw [(List.getElem?_eq_some_iff.1 hj).2] at this
        exact this
      have := h2.1 h3
      omega
  · intro h; exact List.mem_of_getElem? h

theorem find_iff (c : Comp K) (hc : Total c) (l : Store K V) (hs : Sorted c l) (k : K) (v : V) : find c l k = some v ↔ (k, v) ∈ l := by
  rw [at_position c hc l hs]
  unfold find
  cases hp : l[position c l k]? with
  | none => simp
  | some e =>
    simp only
    by_cases he : c.eq e.1 k = true
    · rw [if_pos he]
      have := (hc.eq _ _).1 he
      subst this
      constructor
      · intro h; cases h; rfl
      · intro h; rw [Option.some.inj h]
    · rw [if_neg he]
      constructor
      · intro h; cases h
      · intro h; cases h; exact absurd ((hc.eq _ _).2 rfl) he

theorem hit_iff (c : Comp K) (hc : Total c) (l : Store K V) (hs : Sorted c l) (k : K) : hit c l k (position c l k) = true ↔ ∃ v, (k, v) ∈ l := by
  unfold hit
  constructor
  · intro h
    cases hp : l[position c l k]? with
    | none => rw [hp] at h; cases h
    | some e =>
      rw [hp] at h
      have := (hc.eq _ _).1 h
      exact ⟨e.2, List.mem_of_getElem? (i := position c l k) (by rw [hp, ← this])⟩
  · rintro ⟨v, hv⟩
    rw [(at_position c hc l hs k v).1 hv]
    exact (hc.eq _ _).2 rfl

theorem take_lt (c : Comp K) (hc : Total c) (l : Store K V) (hs : Sorted c l) (k : K) : ∀ e ∈ l.take (position c l k), c.lt e.1 k = true := by
  intro e he
  obtain ⟨j, hj, rfl⟩ := List.mem_take_iff_getElem.1 he
  have hj' : j < position c l k ∧ j < l.length := by omega
  exact (position_spec c hc l hs k j l[j] (List.getElem?_eq_getElem hj'.2)).2 hj'.1

theorem drop_gt (c : Comp K) (hc : Total c) (l : Store K V) (hs : Sorted c l) (k : K) (hn : ¬ ∃ v, (k, v) ∈ l) : ∀ e ∈ l.drop (position c l k), c.lt k e.1 = true := by
  intro e he
  obtain ⟨j, hj⟩ := List.mem_iff_getElem?.1 he
  rw [List.getElem?_drop] at hj
  have h1 := position_spec c hc l hs k _ e hj
  have h2 : c.lt e.1 k = false := by
    by_contra h
    have := h1.1 (by simpa using h)
    omega
  by_contra h3
  have := hc.total _ _ h2 (by simpa using h3)
  exact hn ⟨e.2, by rw [← this]; exact List.mem_of_mem_drop he⟩

theorem insertAt_sorted (c : Comp K) (hc : Total c) (l : Store K V) (hs : Sorted c l) (k : K) (v : V) (hn : ¬ ∃ v, (k, v) ∈ l) :
    Sorted c (insertAt l (position c l k) (k, v)) := by
  have h1 := take_lt c hc l hs k
  have h2 := drop_gt c hc l hs k hn
  have hs' : (l.take (position c l k) ++ l.drop (position c l k)).Pairwise (fun a b => c.lt a.1 b.1 = true) := by rw [List.take_append_drop]; exact hs
  rw [List.pairwise_append] at hs'
  unfold Sorted insertAt
  rw [List.pairwise_append, List.pairwise_cons]
  refine ⟨hs'.1, ⟨h2, hs'.2.1⟩, ?_⟩
  intro a ha b hb
  rcases List.mem_cons.1 hb with rfl | hb
  · exact h1 a ha
  · exact hs'.2.2 a ha b hb

theorem insertAt_mem (l : Store K V) (i : Nat) (e x : K × V) : x ∈ insertAt l i e ↔ x = e ∨ x ∈ l := by
  unfold insertAt
  rw [List.mem_append, List.mem_cons]
  conv => rhs; rw [← List.take_append_drop i l, List.mem_append]
  constructor
  · rintro (h | h | h)
    · exact .inr (.inl h)
    · exact .inl h
    · exact .inr (.inr h)
  · rintro (h | h | h)
    · exact .inr (.inl h)
    · exact .inl h
    · exact .inr (.inr h)

theorem modify_sorted (c : Comp K) (l : Store K V) (hs : Sorted c l) (i : Nat) (v : V) : Sorted c (l.modify i (fun e => (e.1, v))) := by
  unfold Sorted at *
  rw [List.pairwise_iff_getElem] at hs ⊢
  intro i j hi hj hij
  simp only [List.length_modify] at hi hj
  have := hs i j hi hj hij
  simp only [List.getElem_modify]
  split <;> split <;> exact this

theorem assign_find [DecidableEq K] (c : Comp K) (hc : Total c) (l : Store K V) (hs : Sorted c l) (k : K) (v : V) :
    Sorted c (assign c l k v) ∧ ∀ x, find c (assign c l k v) x = if x = k then some v else find c l x := by
  unfold assign
  by_cases h : hit c l k (position c l k) = true
  · rw [if_pos h]
    obtain ⟨w, hw⟩ := (hit_iff c hc l hs k).1 h
    have hp := (at_position c hc l hs k w).1 hw
    have hs' := modify_sorted c l hs (position c l k) v
    refine ⟨hs', fun x => ?_⟩
    obtain ⟨hlt, he⟩ := List.getElem?_eq_some_iff.1 hp
    have mem : ∀ y u, (y, u) ∈ l.modify (position c l k) (fun e => (e.1, v)) ↔ (y = k ∧ u = v) ∨ (y ≠ k ∧ (y, u) ∈ l) := by
      intro y u
      constructor
      · intro hm
        obtain ⟨j, hj, hje⟩ := List.mem_iff_getElem.1 hm
        rw [List.getElem_modify] at hje
        have hjl : j < l.length := by simpa using hj
        split at hje
        · rename_i e; subst e
          rw [he] at hje
          cases hje
          exact .inl ⟨rfl, rfl⟩
        · rename_i ne
          right
          refine ⟨?_, by rw [← hje]; exact List.getElem_mem hjl⟩
          rintro rfl
          have hmem : (y, u) ∈ l := by rw [← hje]; exact List.getElem_mem hjl
          have hat := (at_position c hc l hs y u).1 hmem
          have ord := List.pairwise_iff_getElem.1 hs
          rcases Nat.lt_or_gt_of_ne ne with hlt' | hgt
          · have := ord _ _ hlt hjl hlt'
            rw [he, hje, hc.irrefl] at this; cases this
          · have := ord _ _ hjl hlt hgt
            rw [he, hje, hc.irrefl] at this; cases this
      · rintro (⟨rfl, rfl⟩ | ⟨hne, hm⟩)
        · rw [List.mem_iff_getElem]
          refine ⟨position c l y, by simpa using hlt, ?_⟩
          rw [List.getElem_modify, if_pos rfl, he]
        · obtain ⟨j, hj, hje⟩ := List.mem_iff_getElem.1 hm
          rw [List.mem_iff_getElem]
          refine ⟨j, by simpa using hj, ?_⟩
          rw [List.getElem_modify, if_neg, hje]
          intro e
          have : l[j] = (k, w) := by subst e; exact he
          rw [hje] at this
          cases this
          exact hne rfl
    by_cases hx : x = k
    · rw [if_pos hx]
      exact (find_iff c hc _ hs' x v).2 ((mem x v).2 (.inl ⟨hx, rfl⟩))
    · rw [if_neg hx]
      cases hf : find c l x with
      | some u => exact (find_iff c hc _ hs' x u).2 ((mem x u).2 (.inr ⟨hx, (find_iff c hc l hs x u).1 hf⟩))
      | none =>
        cases hf' : find c (l.modify (position c l k) (fun e => (e.1, v))) x with
        | none => rfl
        | some u =>
          rcases (mem x u).1 ((find_iff c hc _ hs' x u).1 hf') with ⟨e, -⟩ | ⟨-, hm⟩
          · exact absurd e hx
          · rw [(find_iff c hc l hs x u).2 hm] at hf; cases hf
  · rw [if_neg h]
    have hn : ¬ ∃ v, (k, v) ∈ l := fun h' => h ((hit_iff c hc l hs k).2 h')
    have hs' := insertAt_sorted c hc l hs k v hn
    refine ⟨hs', fun x => ?_⟩
    by_cases hx : x = k
    · subst hx
      rw [if_pos rfl]
      exact (find_iff c hc _ hs' x v).2 ((insertAt_mem _ _ _ _).2 (.inl rfl))
    · rw [if_neg hx]
      cases hf : find c l x with
      | some u => exact (find_iff c hc _ hs' x u).2 ((insertAt_mem _ _ _ _).2 (.inr ((find_iff c hc l hs x u).1 hf)))
      | none =>
        cases hf' : find c (insertAt l (position c l k) (k, v)) x with
        | none => rfl
        | some u =>
          rcases (insertAt_mem _ _ _ _).1 ((find_iff c hc _ hs' x u).1 hf') with e | hm
          · cases e; exact absurd rfl hx
          · rw [(find_iff c hc l hs x u).2 hm] at hf; cases hf

theorem find_none (c : Comp K) (hc : Total c) (l : Store K V) (hs : Sorted c l) (k : K) : find c l k = none ↔ hit c l k (position c l k) = false := by
  cases hf : find c l k with
  | none =>
    simp only [true_iff]
    by_contra h
    obtain ⟨v, hv⟩ := (hit_iff c hc l hs k).1 (by simpa using h)
    rw [(find_iff c hc l hs k v).2 hv] at hf
    cases hf
  | some v =>
    simp only [reduceCtorEq, false_iff, Bool.not_eq_false]
    exact (hit_iff c hc l hs k).2 ⟨v, (find_iff c hc l hs k v).1 hf⟩

theorem change_find [DecidableEq K] (c : Comp K) (hc : Total c) (l : Store K V) (hs : Sorted c l) (o : Change K V) :
    Sorted c (change c l o) ∧ ∀ x, find c (change c l o) x = meaning (find c l) o x := by
  cases o with
  | assign k v => exact assign_find c hc l hs k v
  | clear => exact ⟨List.Pairwise.nil, fun x => rfl⟩
  | insert k v =>
    simp only [change, insert, meaning]
    by_cases h : hit c l k (position c l k) = true
    · rw [if_pos h]
      refine ⟨hs, fun x => ?_⟩
      rw [if_neg]
      rintro ⟨-, hn⟩
      rw [(find_none c hc l hs k).1 hn] at h
      cases h
    · have hn : find c l k = none := (find_none c hc l hs k).2 (by simpa using h)
      have := assign_find c hc l hs k v
      unfold assign at this
      rw [if_neg h] at this
      rw [if_neg h]
      refine ⟨this.1, fun x => ?_⟩
      rw [this.2 x]
      simp [hn]

/-- **C110, tables are maps.**  For every strict total order of keys and every history of insertions, assignments and clearings: a search finds, for every key, what the same history makes of a function
from keys to values; a further insertion succeeds exactly if there is no value; the entries are in strictly increasing order of their keys; and they are exactly the values that are found. -/
theorem c110_map [DecidableEq K] (c : Comp K) (hc : Total c) (ops : List (Change K V)) :
    (∀ k, find c (ops.foldl (change c) []) k = ops.foldl meaning (fun _ => none) k) ∧
    (∀ k v, (insert c (ops.foldl (change c) []) k v).2 = true ↔ ops.foldl meaning (fun _ => none) k = none) ∧
    (ops.foldl (change c) []).Pairwise (fun a b => c.lt a.1 b.1 = true) ∧
    ∀ k v, (k, v) ∈ ops.foldl (change c) [] ↔ ops.foldl meaning (fun _ => none) k = some v := by
  have key : ∀ (ops : List (Change K V)) (l : Store K V) (m : K → Option V), Sorted c l → (∀ k, find c l k = m k) →
      Sorted c (ops.foldl (change c) l) ∧ ∀ k, find c (ops.foldl (change c) l) k = ops.foldl meaning m k := by
    intro ops
    induction ops with
    | nil => intro l m hs h; exact ⟨hs, h⟩
    | cons o ops ih =>
      intro l m hs h
      obtain ⟨h1, h2⟩ := change_find c hc l hs o
      have hm : find c l = m := funext h
      exact ih _ _ h1 (fun k => by rw [h2 k, hm])
  obtain ⟨h1, h2⟩ := key ops [] (fun _ => none) List.Pairwise.nil (fun k => rfl)
  refine ⟨h2, fun k v => ?_, h1, fun k v => ?_⟩
  · rw [← h2 k, find_none c hc _ h1 k]
    unfold insert
    split <;> simp_all
  · rw [← h2 k, find_iff c hc _ h1]

end

theorem strLt_irrefl (s : List Char) : strLt s s = false := by
  induction s with
  | nil => rfl
  | cons a s ih => simp [strLt, ih]

theorem char_eq {a b : Char} (h1 : ¬ a.toNat < b.toNat) (h2 : ¬ b.toNat < a.toNat) : a = b := by
  apply Char.ext
  apply UInt32.toNat_inj.1
  show a.toNat = b.toNat
  omega

theorem strLt_total : ∀ (s t : List Char), strLt s t = false → strLt t s = false → s = t
  | [], [], _, _ => rfl
  | [], _ :: _, h, _ => by simp [strLt] at h
  | _ :: _, [], _, h => by simp [strLt] at h
  | a :: s, b :: t, h1, h2 => by
    unfold strLt at h1 h2
    by_cases hab : a.toNat < b.toNat
    · simp [hab] at h1
    · by_cases hba : b.toNat < a.toNat
      · simp [hba] at h2
      · simp only [hab, hba, if_false] at h1 h2
        rw [char_eq hab hba, strLt_total s t h1 h2]

theorem strLt_trans : ∀ (s t u : List Char), strLt s t = true → strLt t u = true → strLt s u = true
  | [], _, [], h1, h2 => by cases ‹List Char› <;> simp [strLt] at h1 h2
  | [], _, _ :: _, _, _ => rfl
  | _ :: _, [], _, h1, _ => by simp [strLt] at h1
  | _ :: _, _ :: _, [], _, h2 => by simp [strLt] at h2
  | a :: s, b :: t, d :: u, h1, h2 => by
    unfold strLt at h1 h2 ⊢
    by_cases hab : a.toNat < b.toNat
    · by_cases hbd : b.toNat < d.toNat
      · simp [show a.toNat < d.toNat by omega]
      · by_cases hdb : d.toNat < b.toNat
        · simp [hbd, hdb] at h2
        · simp [show a.toNat < d.toNat by omega]
    · by_cases hba : b.toNat < a.toNat
      · simp [hab, hba] at h1
      · simp only [hab, hba, if_false] at h1
        by_cases hbd : b.toNat < d.toNat
        · simp [show a.toNat < d.toNat by omega]
        · by_cases hdb : d.toNat < b.toNat
          · simp [hbd, hdb] at h2
          · simp only [hbd, hdb, if_false] at h2
            rw [if_neg (by omega), if_neg (by omega)]
            exact strLt_trans s t u h1 h2

/-- **C110, strings as keys.**  The comparison of strings is a strict total order. -/
theorem c110_strings : Total strComp :=
  ⟨fun a b => by simp [strComp], strLt_irrefl, strLt_trans, strLt_total⟩

theorem c110_example :
    let l := [Change.insert "b".toList 1, .insert "a".toList 2, .insert "b".toList 3, .assign "c".toList 4, .assign "a".toList 5].foldl (change strComp) []
    l = [("a".toList, 5), ("b".toList, 1), ("c".toList, 4)] ∧ find strComp l "b".toList = some 1 ∧ find strComp l "d".toList = none := by decide

/-! ## C111 -/

theorem searchFile_iff (fs : FS) (fname : List Char) (paths : List (List Char)) (f : File) :
    searchFile fs fname paths = some f ↔ FirstFile fs (places paths fname) f := by
  have key : ∀ (l : List (List Char)), l.findSome? fs = some f ↔ FirstFile fs l f := by
    intro l
    unfold FirstFile
    rw [List.findSome?_eq_some_iff]
    constructor
    · rintro ⟨pre, p, post, rfl, hf, hp⟩
      exact ⟨pre, p, post, rfl, hp, hf⟩
    · rintro ⟨pre, p, post, rfl, hp, hf⟩
      exact ⟨pre, p, post, rfl, hf, hp⟩
  have e : searchFile fs fname paths = (places paths fname).findSome? fs := by
    unfold searchFile places
    rw [List.findSome?_cons, List.findSome?_map]
    cases fs fname <;> rfl
  rw [e, key]

theorem searchFile_none (fs : FS) (fname : List Char) (paths : List (List Char)) :
    searchFile fs fname paths = none ↔ ∀ p ∈ places paths fname, fs p = none := by
  unfold searchFile places
  cases h : fs fname with
  | some f => simp [h]
  | none => simp [h, List.findSome?_eq_none_iff]

theorem free_table (s : Lib) (p : Nat) : (s.free p).table = s.table ∧ (s.free p).paths = s.paths ∧ (s.free p).next = s.next := by
  unfold Lib.free; split <;> exact ⟨rfl, rfl, rfl⟩

/-- The addresses of the documents in the table are below the next one. -/
def Fresh (s : Lib) : Prop := ∀ k d, find strComp s.table k = some d → d.ptr < s.next

theorem loadNew {s : Lib} (hs : Sorted strComp s.table) (hf : Fresh s) (nodeId : List Char) (ok : Bool) (text : Nat) :
    (ok = true ∧ (s.alloc.loadDocument ⟨s.next, nodeId, ok, text⟩).2 = .lib ⟨s.next, nodeId, ok, text⟩ ∧
      ∀ k, find strComp (s.alloc.loadDocument ⟨s.next, nodeId, ok, text⟩).1.table k = if k = nodeId then some ⟨s.next, nodeId, ok, text⟩ else find strComp s.table k) ∨
    (ok = false ∧ (s.alloc.loadDocument ⟨s.next, nodeId, ok, text⟩).2 = .null ∧ (s.alloc.loadDocument ⟨s.next, nodeId, ok, text⟩).1.table = s.table) := by
  unfold Lib.loadDocument
  have hn : (find strComp s.alloc.table nodeId).map Doc.ptr ≠ some s.next := by
    intro h
    obtain ⟨d, hd, he⟩ := Option.map_eq_some_iff.1 h
    have := hf nodeId d hd
    omega
  rw [if_neg hn]
  cases ok with
  | false =>
    right
    rw [if_pos rfl]
    exact ⟨rfl, rfl, (free_table _ _).1⟩
  | true =>
    left
    rw [if_neg (by simp)]
    refine ⟨rfl, rfl, fun k => ?_⟩
    have := (assign_find strComp c110_strings s.table hs nodeId (⟨s.next, nodeId, true, text⟩ : Doc)).2 k
    unfold Lib.store
    split <;> exact this

/-- **C111 (partial), finding a library.**  For every state of the table, every file system and every name.  A library of that name that is in the table is returned, whatever there is in the file system, and
nothing changes.  Otherwise, if there is no file of that name in any of the places, nothing is returned.  If the first file found is no XML, that is an exception.  If it is a proper plan whose root is
named as the file, that is returned and in the table from now on, as everything that was there.  In all other cases nothing is returned and the table stays as it is. -/
theorem c111_get_partial (s : Lib) (hs : s.table.Pairwise (fun a b => strLt a.1 b.1 = true)) (hf : Fresh s) (fs : FS) (name : List Char) :
    (∀ d, find strComp s.table name = some d → s.get fs name true = (s, .lib d)) ∧
    (find strComp s.table name = none →
      ((∀ p ∈ places s.paths (names name).2, fs p = none) → s.get fs name true = (s, .null)) ∧
      (FirstFile fs (places s.paths (names name).2) .malformed → s.get fs name true = (s, .throw)) ∧
      ∀ nodeId ok text, FirstFile fs (places s.paths (names name).2) (.doc nodeId ok text) →
        (nodeId = (names name).1 ∧ ok = true → (s.get fs name true).2 = .lib ⟨s.next, nodeId, ok, text⟩ ∧
          ∀ k, find strComp (s.get fs name true).1.table k = if k = nodeId then some ⟨s.next, nodeId, ok, text⟩ else find strComp s.table k) ∧
        (¬ (nodeId = (names name).1 ∧ ok = true) → (s.get fs name true).2 = .null ∧ (s.get fs name true).1.table = s.table)) := by
  refine ⟨fun d hd => by unfold Lib.get; rw [hd], fun hnone => ?_⟩
  have e : s.get fs name true = s.loadFile (names name).1 (searchFile fs (names name).2 s.paths) := by
    unfold Lib.get; rw [hnone]; rfl
  rw [e]
  refine ⟨fun h => ?_, fun h => ?_, fun nodeId ok text h => ?_⟩
  · rw [(searchFile_none fs _ _).2 h]; rfl
  · rw [(searchFile_iff fs _ _ _).2 h]; rfl
  · rw [(searchFile_iff fs _ _ _).2 h]
    unfold Lib.loadFile
    by_cases hn : (names name).1 = nodeId
    · simp only [hn, ne_eq, not_true, if_false, true_and]
      rcases loadNew hs hf nodeId ok text with ⟨h1, h2, h3⟩ | ⟨h1, h2, h3⟩
      · exact ⟨fun _ => ⟨h2, h3⟩, fun h => absurd h1 h⟩
      · exact ⟨fun h => absurd (h1.symm.trans h) (by simp), fun _ => ⟨h2, h3⟩⟩
    · simp only [ne_eq, hn, not_false_eq_true, if_true]
      exact ⟨fun h => absurd h.1.symm hn, fun _ => ⟨trivial, (free_table _ _).1⟩⟩

theorem rfindPlx_none {s : List Char} : rfindPlx s = none ↔ ¬ ".plx".toList <:+: s := by
  induction s with
  | nil => exact ⟨fun _ => by decide, fun _ => rfl⟩
  | cons c r ih =>
    rw [rfindPlx]
    rw [List.infix_cons_iff]
    cases h : rfindPlx r with
    | some i =>
      rw [h] at ih
      have : ".plx".toList <:+: r := by
        by_contra hne
        exact absurd (ih.2 hne) (by simp)
      exact ⟨fun hh => absurd hh (by simp), fun hh => absurd (Or.inr this) hh⟩
    | none =>
      have hn := ih.1 h
      by_cases hp : ".plx".toList.isPrefixOf (c :: r) = true
      · have := List.isPrefixOf_iff_prefix.1 hp
        show (if ".plx".toList.isPrefixOf (c :: r) = true then some 0 else none) = none ↔ _
        rw [if_pos hp]
        exact ⟨fun hh => absurd hh (by simp), fun hh => absurd (Or.inl this) hh⟩
      · show (if ".plx".toList.isPrefixOf (c :: r) = true then some 0 else none) = none ↔ _
        rw [if_neg hp]
        refine ⟨fun _ => ?_, fun _ => rfl⟩
        rintro (h' | h')
        · exact hp (List.isPrefixOf_iff_prefix.2 h')
        · exact hn h'

theorem rfindPlx_end {s : List Char} : rfindPlx (s ++ ".plx".toList) = some s.length := by
  induction s with
  | nil => decide
  | cons c r ih => rw [List.cons_append, rfindPlx, ih]; rfl

theorem lastSlash_none {s : List Char} (h : '/' ∉ s ∧ '\\' ∉ s) : lastSlash s = none := by
  induction s with
  | nil => rfl
  | cons c r ih =>
    simp only [List.mem_cons, not_or] at h
    rw [lastSlash, ih ⟨h.1.2, h.2.2⟩]
    simp only
    rw [if_neg]
    rintro (rfl | rfl)
    · exact h.1.1 rfl
    · exact h.2.1 rfl

theorem baseName_dir {d b : List Char} (h : '/' ∉ b ∧ '\\' ∉ b) : baseName (d ++ '/' :: b) = b := by
  have e : lastSlash (d ++ '/' :: b) = some d.length := by
    induction d with
    | nil => rw [List.nil_append, lastSlash, lastSlash_none h]; simp
    | cons c d ih => rw [List.cons_append, lastSlash, ih]; rfl
  unfold baseName
  rw [e]
  simp

theorem baseName_plain {b : List Char} (h : '/' ∉ b ∧ '\\' ∉ b) : baseName b = b := by
  unfold baseName; rw [lastSlash_none h]

/-- **C111, names.**  A plain name stands for the file with `.plx` added, in any directory; a name that ends in `.plx` for itself; in both cases the node has the name without directory and `.plx`. -/
theorem c111_names (d b : List Char) (h : '/' ∉ b ∧ '\\' ∉ b) :
    (¬ ".plx".toList <:+: b → names b = (b, b ++ ".plx".toList)) ∧
    (¬ ".plx".toList <:+: d ++ '/' :: b → names (d ++ '/' :: b) = (b, d ++ '/' :: b ++ ".plx".toList)) ∧
    names (b ++ ".plx".toList) = (b, b ++ ".plx".toList) ∧
    names (d ++ '/' :: b ++ ".plx".toList) = (b, d ++ '/' :: b ++ ".plx".toList) := by
  refine ⟨fun hn => ?_, fun hn => ?_, ?_, ?_⟩
  · unfold names; rw [rfindPlx_none.2 hn]; simp only [baseName_plain h]
  · unfold names; rw [rfindPlx_none.2 hn]; simp only [baseName_dir h]
  · unfold names; rw [rfindPlx_end]; simp only [List.take_left, baseName_plain h]
  · unfold names; rw [rfindPlx_end]; simp only [List.take_left, baseName_dir h]

/-! ## C112 -/

theorem assign_perm (l : Store (List Char) Doc) (hs : Sorted strComp l) (k : List Char) (v : Doc) :
    (find strComp l k = none → (assign strComp l k v).Perm ((k, v) :: l)) ∧
    ∀ w, find strComp l k = some w → ∃ rest, l.Perm ((k, w) :: rest) ∧ (assign strComp l k v).Perm ((k, v) :: rest) := by
  refine ⟨fun hn => ?_, fun w hw => ?_⟩
  · have := (find_none strComp c110_strings l hs k).1 hn
    unfold assign insertAt
    rw [if_neg (by simp [this])]
    refine List.perm_middle.trans ?_
    rw [List.take_append_drop]
  · have hm := (find_iff strComp c110_strings l hs k w).1 hw
    have hh := (hit_iff strComp c110_strings l hs k).2 ⟨w, hm⟩
    have hp := (at_position strComp c110_strings l hs k w).1 hm
    obtain ⟨hlt, he⟩ := List.getElem?_eq_some_iff.1 hp
    refine ⟨l.take (position strComp l k) ++ l.drop (position strComp l k + 1), ?_, ?_⟩
    · refine List.Perm.trans ?_ List.perm_middle
      rw [← he, List.getElem_cons_drop, List.take_append_drop]
    · unfold assign
      rw [if_pos hh]
      refine List.Perm.trans ?_ List.perm_middle
      rw [List.modify_eq_take_cons_drop hlt, he]

/-- Everything is in order: the table is sorted, its keys are the names of the documents, which were accepted by the check; the documents allocated are exactly those in the table, once each. -/
structure Inv (s : Lib) : Prop where
  sorted : Sorted strComp s.table
  entries : ∀ k d, find strComp s.table k = some d → d.nodeId = k ∧ d.ok = true
  live : s.live.Perm (s.table.map (fun e => e.2.ptr))
  nodup : s.live.Nodup
  below : ∀ p ∈ s.live, p < s.next
  good : s.bad = false

theorem Inv.fresh {s : Lib} (h : Inv s) : Fresh s := by
  intro k d hd
  apply h.below
  rw [h.live.mem_iff]
  exact List.mem_map.2 ⟨(k, d), (find_iff strComp c110_strings _ h.sorted k d).1 hd, rfl⟩

theorem alloc_free {s : Lib} (h : Inv s) : s.alloc.free s.next = { s with next := s.next + 1 } := by
  unfold Lib.free Lib.alloc
  simp

theorem inv_next {s : Lib} (h : Inv s) : Inv { s with next := s.next + 1 } :=
  ⟨h.sorted, h.entries, h.live, h.nodup, fun p hp => Nat.lt_succ_of_lt (h.below p hp), h.good⟩

theorem inv_loadNew {s : Lib} (h : Inv s) (nodeId : List Char) (ok : Bool) (text : Nat) : Inv (s.alloc.loadDocument ⟨s.next, nodeId, ok, text⟩).1 := by
  have hnf : (find strComp s.alloc.table nodeId).map Doc.ptr ≠ some s.next := by
    intro h'
    obtain ⟨d, hd, he⟩ := Option.map_eq_some_iff.1 h'
    have := h.fresh nodeId d hd
    omega
  unfold Lib.loadDocument
  rw [if_neg hnf]
  cases ok with
  | false => rw [if_pos rfl]; simp only [alloc_free h]; exact inv_next h
  | true =>
    rw [if_neg (by simp)]
    simp only
    obtain ⟨a1, a2⟩ := assign_find strComp c110_strings s.table h.sorted nodeId (⟨s.next, nodeId, true, text⟩ : Doc)
    have hent : ∀ k d, find strComp (assign strComp s.table nodeId ⟨s.next, nodeId, true, text⟩) k = some d → d.nodeId = k ∧ d.ok = true := by
      intro k d hd
      rw [a2 k] at hd
      split at hd
      · rename_i e; subst e; cases hd; exact ⟨rfl, rfl⟩
      · exact h.entries k d hd
    have hnew : s.next ∉ s.live := fun hm => Nat.lt_irrefl _ (h.below _ hm)
    obtain ⟨p1, p2⟩ := assign_perm s.table h.sorted nodeId ⟨s.next, nodeId, true, text⟩
    show Inv (s.alloc.store ⟨s.next, nodeId, true, text⟩ (find strComp s.table nodeId))
    cases hold : find strComp s.table nodeId with
    | none =>
      refine ⟨a1, hent, ?_, ?_, ?_, h.good⟩
      · show (s.next :: s.live).Perm _
        exact (List.Perm.cons _ h.live).trans ((p1 hold).map (fun e : List Char × Doc => e.2.ptr)).symm
      · exact List.nodup_cons.2 ⟨hnew, h.nodup⟩
      · intro p hp
        rcases List.mem_cons.1 hp with rfl | hp
        · exact Nat.lt_succ_self _
        · exact Nat.lt_succ_of_lt (h.below p hp)
    | some w =>
      obtain ⟨rest, r1, r2⟩ := p2 w hold
      have hlw : s.live.Perm (w.ptr :: rest.map (fun e => e.2.ptr)) := h.live.trans (r1.map (fun e : List Char × Doc => e.2.ptr))
      have hmem : w.ptr ∈ s.alloc.live := List.mem_cons_of_mem _ (hlw.mem_iff.2 (by simp))
      have hne : s.next ≠ w.ptr := fun e => by
        have := h.fresh nodeId w hold
        omega
      have hfree : s.alloc.free w.ptr = { s.alloc with live := s.next :: s.live.erase w.ptr } := by
        unfold Lib.free
        rw [if_pos hmem]
        show ({ s.alloc with live := (s.next :: s.live).erase w.ptr } : Lib) = _
        rw [List.erase_cons_tail (by simp [hne])]
      have hlive : (s.live.erase w.ptr).Perm (rest.map (fun e => e.2.ptr)) := by
        have := hlw.erase w.ptr
        simpa using this
      have hst : s.alloc.store ⟨s.next, nodeId, true, text⟩ (some w) =
          { s.alloc with live := s.next :: s.live.erase w.ptr, table := assign strComp s.table nodeId ⟨s.next, nodeId, true, text⟩ } := by
        unfold Lib.store
        simp only [hfree]
        rfl
      rw [hst]
      refine ⟨a1, hent, ?_, ?_, ?_, h.good⟩
      · show (s.next :: s.live.erase w.ptr).Perm _
        exact (List.Perm.cons _ hlive).trans (r2.map (fun e : List Char × Doc => e.2.ptr)).symm
      · exact List.nodup_cons.2 ⟨fun hm => hnew (List.mem_of_mem_erase hm), h.nodup.erase _⟩
      · intro p hp
        rcases List.mem_cons.1 hp with rfl | hp
        · exact Nat.lt_succ_self _
        · exact Nat.lt_succ_of_lt (h.below p (List.mem_of_mem_erase hp))

theorem inv_loadNode {s : Lib} (h : Inv s) (fs : FS) (name : List Char) : Inv (s.loadNode fs name).1 := by
  unfold Lib.loadNode Lib.loadFile
  split
  · exact h
  · exact h
  · split
    · simp only [alloc_free h]; exact inv_next h
    · exact inv_loadNew h _ _ _

theorem free_all (l : Store (List Char) Doc) : ∀ (s : Lib), s.live.Perm (l.map (fun e => e.2.ptr)) → s.bad = false →
    (l.foldl (fun s e => s.free e.2.ptr) s).live = [] ∧ (l.foldl (fun s e => s.free e.2.ptr) s).bad = false := by
  induction l with
  | nil => intro s h hb; exact ⟨List.perm_nil.1 h, hb⟩
  | cons e l ih =>
    intro s h hb
    have hm : e.2.ptr ∈ s.live := h.mem_iff.2 (by simp)
    rw [List.foldl_cons]
    apply ih
    · unfold Lib.free
      rw [if_pos hm]
      have := h.erase e.2.ptr
      simpa using this
    · unfold Lib.free
      rw [if_pos hm]
      exact hb

theorem inv_step {s : Lib} (h : Inv s) (o : Op) (hn : NotAgain o) : Inv (s.step o).1 := by
  cases o with
  | get fs name load =>
    simp only [Lib.step]
    unfold Lib.get
    split
    · exact h
    · split
      · exact inv_loadNode h fs name
      · exact h
  | load fs name => exact inv_loadNode h fs name
  | add nodeId ok text => exact inv_loadNew h nodeId ok text
  | again d => exact absurd hn (by simp [NotAgain])
  | append dir => exact ⟨h.sorted, h.entries, h.live, h.nodup, h.below, h.good⟩
  | prepend dir => exact ⟨h.sorted, h.entries, h.live, h.nodup, h.below, h.good⟩
  | setPaths dirs => exact ⟨h.sorted, h.entries, h.live, h.nodup, h.below, h.good⟩
  | clean =>
    obtain ⟨f1, f2⟩ := free_all s.table s h.live h.good
    simp only [Lib.step]
    unfold Lib.clean
    refine ⟨List.Pairwise.nil, fun k d hd => by (cases hd), ?_, ?_, ?_, f2⟩
    · simp only [f1]; exact List.Perm.refl _
    · simp only [f1]; exact List.nodup_nil
    · simp only [f1]; intro p hp; cases hp

theorem inv_run (ops : List Op) : ∀ (s : Lib), Inv s → (∀ o ∈ ops, NotAgain o) → Inv (s.run ops) := by
  induction ops with
  | nil => intro s h _; exact h
  | cons o ops ih => intro s h hn; exact ih _ (inv_step h o (hn o (by simp))) (fun o' ho => hn o' (by simp [ho]))

theorem inv_init : Inv {} := ⟨List.Pairwise.nil, fun k d h => by (cases h), List.Perm.refl _, List.nodup_nil, fun p h => by (cases h), rfl⟩

/-- **C112 (partial), the documents of the table.**  After every history of calls in which no document is handed over twice, whatever files there were at each call: no document was deleted twice; the
documents that have not been deleted are exactly those in the table, each of them once; each has passed the check and is in the table under the name of its root node. -/
theorem c112_documents_partial (ops : List Op) (hn : ∀ o ∈ ops, NotAgain o) :
    (Lib.run {} ops).bad = false ∧ (Lib.run {} ops).live.Nodup ∧ (Lib.run {} ops).live.Perm ((Lib.run {} ops).table.map (fun e => e.2.ptr)) ∧
    ∀ k d, (k, d) ∈ (Lib.run {} ops).table → d.nodeId = k ∧ d.ok = true := by
  have h := inv_run ops {} inv_init hn
  exact ⟨h.good, h.nodup, h.live, fun k d hd => h.entries k d ((find_iff strComp c110_strings _ h.sorted k d).2 hd)⟩

/-- The hypotheses of C111 hold after every such history. -/
theorem c111_reachable (ops : List Op) (hn : ∀ o ∈ ops, NotAgain o) :
    (Lib.run {} ops).table.Pairwise (fun a b => strLt a.1 b.1 = true) ∧ Fresh (Lib.run {} ops) :=
  ⟨(inv_run ops {} inv_init hn).sorted, (inv_run ops {} inv_init hn).fresh⟩

theorem step_find {s : Lib} (h : Inv s) (o : Op) (hn : NotAgain o) (hc : o ≠ .clean) (n : List Char) :
    (∀ d, (s.step o).2 = .lib d → find strComp (s.step o).1.table n = if n = d.nodeId then some d else find strComp s.table n) ∧
    ((∀ d, (s.step o).2 ≠ .lib d) → find strComp (s.step o).1.table n = find strComp s.table n) := by
  have hnew : ∀ (nodeId : List Char) (ok : Bool) (text : Nat),
      (∀ d, (s.alloc.loadDocument ⟨s.next, nodeId, ok, text⟩).2 = .lib d →
        find strComp (s.alloc.loadDocument ⟨s.next, nodeId, ok, text⟩).1.table n = if n = d.nodeId then some d else find strComp s.table n) ∧
      ((∀ d, (s.alloc.loadDocument ⟨s.next, nodeId, ok, text⟩).2 ≠ .lib d) →
        find strComp (s.alloc.loadDocument ⟨s.next, nodeId, ok, text⟩).1.table n = find strComp s.table n) := by
    intro nodeId ok text
    rcases loadNew h.sorted h.fresh nodeId ok text with ⟨-, h2, h3⟩ | ⟨-, h2, h3⟩
    · refine ⟨fun d hd => ?_, fun hd => absurd h2 (hd _)⟩
      rw [h2] at hd
      cases hd
      exact h3 n
    · refine ⟨fun d hd => ?_, fun hd => by rw [h3]⟩
      rw [h2] at hd
      cases hd
  have hload : ∀ fs name, (∀ d, (s.loadNode fs name).2 = .lib d → find strComp (s.loadNode fs name).1.table n = if n = d.nodeId then some d else find strComp s.table n) ∧
      ((∀ d, (s.loadNode fs name).2 ≠ .lib d) → find strComp (s.loadNode fs name).1.table n = find strComp s.table n) := by
    intro fs name
    unfold Lib.loadNode Lib.loadFile
    split
    · exact ⟨fun d hd => by (cases hd), fun _ => rfl⟩
    · exact ⟨fun d hd => by (cases hd), fun _ => rfl⟩
    · split
      · exact ⟨fun d hd => by (cases hd), fun _ => by simp only [(free_table _ _).1]; rfl⟩
      · exact hnew _ _ _
  cases o with
  | get fs name load =>
    simp only [Lib.step]
    unfold Lib.get
    split
    · rename_i d hd
      refine ⟨fun d' hd' => ?_, fun hd' => absurd rfl (hd' d)⟩
      cases hd'
      split
      · rename_i e; subst e
        rw [(h.entries name d hd).1]; exact hd
      · rfl
    · split
      · exact hload fs name
      · exact ⟨fun d hd => by (cases hd), fun _ => rfl⟩
  | load fs name => exact hload fs name
  | add nodeId ok text => exact hnew nodeId ok text
  | again d => exact absurd hn (by simp [NotAgain])
  | append dir => exact ⟨fun d hd => by (cases hd), fun _ => rfl⟩
  | prepend dir => exact ⟨fun d hd => by (cases hd), fun _ => rfl⟩
  | setPaths dirs => exact ⟨fun d hd => by (cases hd), fun _ => rfl⟩
  | clean => exact absurd rfl hc

theorem latest_from (ops : List Op) (n : List Char) : ∀ (s : Lib) (acc : List Doc), Inv s → (∀ o ∈ ops, NotAgain o) →
    find strComp s.table n = (acc.filter (fun d => d.nodeId = n)).getLast? →
    find strComp (s.run ops).table n = ((accepted s ops acc).filter (fun d => d.nodeId = n)).getLast? := by
  induction ops with
  | nil => intro s acc _ _ h; exact h
  | cons o ops ih =>
    intro s acc hi hn h
    have hi' := inv_step hi o (hn o (by simp))
    have hn' : ∀ o' ∈ ops, NotAgain o' := fun o' ho => hn o' (by simp [ho])
    show find strComp ((s.step o).1.run ops).table n = _
    by_cases hc : o = .clean
    · subst hc
      rw [accepted]
      exact ih _ _ hi' hn' rfl
    · have hsf := step_find hi o (hn o (by simp)) hc n
      have e : accepted s (o :: ops) acc = match (s.step o).2 with
        | .lib d => accepted (s.step o).1 ops (acc ++ [d])
        | _ => accepted (s.step o).1 ops acc := by
        cases o <;> first | rfl | exact absurd rfl hc
      rw [e]
      cases hr : (s.step o).2 with
      | lib d =>
        apply ih _ _ hi' hn'
        rw [hsf.1 d hr, List.filter_append]
        by_cases hnd : n = d.nodeId
        · simp [hnd]
        · rw [if_neg hnd, h]
          simp [Ne.symm hnd]
      | null =>
        apply ih _ _ hi' hn'
        rw [hsf.2 (by intro d; rw [hr]; simp), h]
      | throw =>
        apply ih _ _ hi' hn'
        rw [hsf.2 (by intro d; rw [hr]; simp), h]

/-- **C112, the latest version.**  After every history of calls in which no document is handed over twice, for every name: the library in the table is the one that was accepted last under that name; calls that
fail change nothing. -/
theorem c112_latest (ops : List Op) (hn : ∀ o ∈ ops, NotAgain o) (n : List Char) :
    find strComp (Lib.run {} ops).table n = ((accepted {} ops []).filter (fun d => d.nodeId = n)).getLast? :=
  latest_from ops n {} [] inv_init hn rfl

/-- Two directories, in the second of which there is `Foo`. -/
def exFS : FS := fun p => if p = "b/Foo.plx".toList then some (.doc "Foo".toList true 7) else none

/-- Found on the path; the second call finds the same; a new version replaces it; a broken one does not. -/
theorem c112_example :
    let ops := [Op.append "a".toList, .append "b".toList, .get exFS "Foo".toList true, .get (fun _ => none) "Foo".toList true, .add "Foo".toList true 8, .add "Foo".toList false 9]
    accepted {} ops [] = [⟨0, "Foo".toList, true, 7⟩, ⟨0, "Foo".toList, true, 7⟩, ⟨1, "Foo".toList, true, 8⟩] ∧
      find strComp (Lib.run {} ops).table "Foo".toList = some ⟨1, "Foo".toList, true, 8⟩ ∧ (Lib.run {} ops).live = [1] ∧ (Lib.run {} ops).bad = false := by decide

/-- A document handed over again is deleted but stays in the table (`planLibrary.cc:157-161`); replacing it deletes it once more. -/
theorem c112_again :
    let s := Lib.run {} [.add "Foo".toList true 8, .again ⟨0, "Foo".toList, true, 8⟩]
    find strComp s.table "Foo".toList = some ⟨0, "Foo".toList, true, 8⟩ ∧ s.live = [] ∧ (Lib.run s [.add "Foo".toList true 9]).bad = true := by decide

/-- A file of that name that comes first on the path and is something else hides the right one. -/
theorem c111_hidden :
    let fs : FS := fun p => if p = "a/Foo.plx".toList then some (.doc "Bar".toList true 1) else if p = "b/Foo.plx".toList then some (.doc "Foo".toList true 7) else none
    (Lib.step { paths := ["a".toList, "b".toList] } (.get fs "Foo".toList true)).2 = .null := by decide

/-- A library called with its directory is read again at every call, although it is in the table. -/
theorem c111_by_path :
    let fs : FS := fun p => if p = "b/Foo.plx".toList then some (.doc "Foo".toList true 7) else none
    let s := Lib.run {} [.get fs "b/Foo".toList true]
    (s.step (.get fs "b/Foo".toList true)).2 = .lib ⟨1, "Foo".toList, true, 7⟩ ∧ (s.step (.get (fun _ => none) "b/Foo".toList true)).2 = .null := by decide

/-- `handleLoadLibrary` reports success although the file is no valid plan, if an older version is there (`InterfaceManager.cc:395-397`). -/
theorem c112_stale_success :
    let s := Lib.run {} [.add "Foo".toList true 8]
    (s.handleLoad (fun p => if p = "Foo.plx".toList then some (.doc "Foo".toList false 9) else none) "Foo".toList).2 = some true := by decide

/-- **C111, the directories**: after an append the new directory is the last that is searched, after a prepend the first, after a setting those given are searched and no
others, and nothing else changes where the library looks. -/
theorem c111_paths (s : Lib) :
    (∀ d, (s.step (.append d)).1.paths = s.paths ++ [d]) ∧ (∀ d, (s.step (.prepend d)).1.paths = d :: s.paths) ∧
      (∀ ds, (s.step (.setPaths ds)).1.paths = ds) :=
  ⟨fun _ => rfl, fun _ => rfl, fun _ => rfl⟩

end Verif.Library
