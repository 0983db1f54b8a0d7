import Verif.Keys.Spec
import Verif.Value.EqLemmas
import Verif.Value.SerialLemmas
import Mathlib.Order.Basic
/-! Lemmas for C76-C78. -/
namespace Verif.Keys
open Verif.Value

/-! ### Bisection -/

theorem lowerBoundLoop_spec {α : Type} (below : α → Bool) (l : List α) (k : Nat)
    (h1 : ∀ i < k, ∀ x, l[i]? = some x → below x = true) (h2 : ∀ i ≥ k, ∀ x, l[i]? = some x → below x = false) :
    ∀ (fuel len first : Nat), len ≤ fuel → first ≤ k → k ≤ first + len → first + len ≤ l.length → lowerBoundLoop below l fuel first len = k := by
  intro fuel
  induction fuel with
  | zero => intro len first h0 hf hk hl; rw [lowerBoundLoop]; omega
  | succ fuel ih =>
    intro len first h0 hf hk hl
    rw [lowerBoundLoop]
    by_cases h : len = 0
    · rw [if_pos h]; omega
    · rw [if_neg h]
      have hlt : first + len / 2 < l.length := by omega
      simp only [List.getElem?_eq_getElem hlt]
      split
      · rename_i hb
        have : first + len / 2 < k := by
          by_contra hc
          have := h2 _ (by omega : first + len / 2 ≥ k) _ (List.getElem?_eq_getElem hlt)
          rw [this] at hb; cases hb
        exact ih _ _ (by omega) (by omega) (by omega) (by omega)
      · rename_i hb
        have : k ≤ first + len / 2 := by
          by_contra hc
          exact hb (h1 _ (by omega) _ (List.getElem?_eq_getElem hlt))
        exact ih _ _ (by omega) (by omega) (by omega) (by omega)

theorem lowerBound_split {α : Type} (below : α → Bool) (l : List α) (h : l.Pairwise fun x y => below y = true → below x = true) :
    ∃ a b, l = a ++ b ∧ lowerBound below l = a.length ∧ (∀ x ∈ a, below x = true) ∧ (∀ x ∈ b, below x = false) := by
  have part : ∃ a b, l = a ++ b ∧ (∀ x ∈ a, below x = true) ∧ (∀ x ∈ b, below x = false) := by
    induction l with
    | nil => exact ⟨[], [], rfl, by simp, by simp⟩
    | cons x l ih =>
      rw [List.pairwise_cons] at h
      cases hx : below x with
      | true =>
        obtain ⟨a, b, rfl, ha, hb⟩ := ih h.2
        exact ⟨x :: a, b, rfl, by simpa [hx] using ha, hb⟩
      | false =>
        refine ⟨[], x :: l, rfl, by simp, ?_⟩
        intro y hy
        rcases List.mem_cons.mp hy with rfl | hy
        · exact hx
        · cases hb : below y with
          | false => rfl
          | true => rw [h.1 y hy hb] at hx; cases hx
  obtain ⟨a, b, rfl, ha, hb⟩ := part
  refine ⟨a, b, rfl, ?_, ha, hb⟩
  apply lowerBoundLoop_spec below (a ++ b) a.length
  · intro i hi x hx
    rw [List.getElem?_append_left hi] at hx
    exact ha x (List.mem_of_getElem? hx)
  · intro i hi x hx
    rw [List.getElem?_append_right hi] at hx
    exact hb x (List.mem_of_getElem? hx)
  · omega
  · omega
  · simp
  · simp

theorem insertIdx_append {α : Type} (a b : List α) (x : α) : (a ++ b).insertIdx a.length x = a ++ x :: b := by
  induction a with
  | nil => rfl
  | cons y a ih => simp only [List.cons_append, List.length_cons, List.insertIdx_succ_cons, ih]

theorem eraseIdx_append_cons {α : Type} (a b : List α) (x : α) : (a ++ x :: b).eraseIdx a.length = a ++ b := by
  induction a with
  | nil => rfl
  | cons y a ih => simp only [List.cons_append, List.length_cons, List.eraseIdx_cons_succ, ih]

theorem getElem?_mid {α : Type} (a b : List α) : (a ++ b)[a.length]? = b.head? := by
  rw [List.getElem?_append_right (by omega), Nat.sub_self]
  cases b <;> rfl

/-! ### `SimpleMap` -/

section SMap
variable {K V : Type} [DecidableEq K] {c : Comp K}

/-- The store is sorted. -/
def Sorted (c : Comp K) (m : List (K × V)) : Prop := m.Pairwise fun x y => c.lt x.1 y.1 = true

/-- What a store stands for. -/
def val (m : List (K × V)) (k : K) : Option V := (m.find? fun e => decide (e.1 = k)).map Prod.snd

theorem val_append (a b : List (K × V)) (k : K) : val (a ++ b) k = (val a k).or (val b k) := by
  simp only [val, List.find?_append]
  cases List.find? (fun e => decide (e.1 = k)) a <;> rfl

theorem val_cons (e : K × V) (b : List (K × V)) (k : K) : val (e :: b) k = if e.1 = k then some e.2 else val b k := by
  simp only [val, List.find?_cons]
  by_cases h : e.1 = k <;> simp [h]

theorem val_none {a : List (K × V)} {k : K} (h : ∀ x ∈ a, x.1 ≠ k) : val a k = none := by
  rw [val, List.find?_eq_none.mpr (fun x hx => by simpa using h x hx)]; rfl

/-- Where the search stops: everything before is less, everything behind is greater. -/
theorem split_store (hc : c.Good) (m : List (K × V)) (hs : Sorted c m) (k : K) :
    ∃ a b, lowerBound (fun e => c.lt e.1 k) m = a.length ∧ (∀ x ∈ a, c.lt x.1 k = true) ∧
      ((∃ v, m = a ++ (k, v) :: b ∧ ∀ x ∈ b, c.lt k x.1 = true) ∨ (m = a ++ b ∧ ∀ x ∈ b, c.lt k x.1 = true)) := by
  obtain ⟨a, b, rfl, h1, h2, h3⟩ := lowerBound_split (fun e => c.lt e.1 k) m (by
    refine hs.imp ?_
    intro x y hxy hy
    exact hc.trans _ _ _ hxy hy)
  have hb : b.Pairwise fun x y => c.lt x.1 y.1 = true := (List.pairwise_append.mp hs).2.1
  cases b with
  | nil => exact ⟨a, [], h1, h2, .inr ⟨rfl, by simp⟩⟩
  | cons e b =>
    rw [List.pairwise_cons] at hb
    by_cases he : e.1 = k
    · refine ⟨a, b, h1, h2, .inl ⟨e.2, by rw [← he], fun x hx => by rw [← he]; exact hb.1 x hx⟩⟩
    · have hke : c.lt k e.1 = true := by
        cases h : c.lt k e.1 with
        | true => rfl
        | false => exact absurd (hc.total _ _ (h3 e (by simp)) h) he
      refine ⟨a, e :: b, h1, h2, .inr ⟨rfl, ?_⟩⟩
      intro x hx
      rcases List.mem_cons.mp hx with rfl | hx
      · exact hke
      · exact hc.trans _ _ _ hke (hb.1 x hx)

theorem ne_of_lt (hc : c.Good) {a b : K} (h : c.lt a b = true) : a ≠ b := by
  rintro rfl; rw [hc.irrefl] at h; cases h

/-- What the operations do to the store and what they answer. -/
theorem ops_spec (hc : c.Good) (dflt : V) (m : List (K × V)) (hs : Sorted c m) (k : K) (v : V) :
    (Sorted c (insert c m k v).2 ∧ ((val m k = none → (insert c m k v).1 = true ∧ val (insert c m k v).2 = fun x => if x = k then some v else val m x) ∧
      ((∃ w, val m k = some w) → insert c m k v = (false, m)))) ∧
    (Sorted c (assign c dflt m k v) ∧ val (assign c dflt m k v) = fun x => if x = k then some v else val m x) ∧
    read c dflt m k = (val m k).getD dflt ∧
    (m[find c m k]?).map Prod.snd = val m k := by
  obtain ⟨a, b, h1, h2, h3⟩ := split_store hc m hs k
  have ha : val a k = none := val_none fun x hx => ne_of_lt hc (h2 x hx)
  have ne : ∀ x y, c.lt x y = true → y ≠ x := fun x y h => (ne_of_lt hc h).symm
  have ecase : ∀ {e : K × V}, c.lt k e.1 = true → c.equal e.1 k = false := by
    intro e he
    cases h : c.equal e.1 k with
    | false => rfl
    | true => exact absurd ((hc.equal _ _).mp h) (ne _ _ he)
  rcases h3 with ⟨w, rfl, h3⟩ | ⟨rfl, h3⟩
  · have hg : (a ++ (k, w) :: b)[a.length]? = some (k, w) := by rw [getElem?_mid]; rfl
    have he : c.equal k k = true := (hc.equal _ _).mpr rfl
    have hv : val (a ++ (k, w) :: b) k = some w := by rw [val_append, ha, val_cons]; simp
    have hins : insert c (a ++ (k, w) :: b) k v = (false, a ++ (k, w) :: b) := by
      simp only [insert, h1, hg, he, if_true]
    have hasg : assign c dflt (a ++ (k, w) :: b) k v = a ++ (k, v) :: b := by
      simp only [assign, access, h1, hg, he, if_true]
      rw [List.set_append_right _ _ (by omega), Nat.sub_self]; rfl
    refine ⟨⟨by rw [hins]; exact hs, fun h => by (rw [hv] at h; cases h), fun _ => hins⟩, ⟨?_, ?_⟩, ?_, ?_⟩
    · rw [hasg]
      rw [Sorted, List.pairwise_append, List.pairwise_cons] at hs ⊢
      refine ⟨hs.1, hs.2.1, fun x hx y hy => ?_⟩
      rcases List.mem_cons.mp hy with rfl | hy
      · exact hs.2.2 x hx (k, w) (by simp)
      · exact hs.2.2 x hx y (by simp [hy])
    · rw [hasg]
      funext x
      by_cases hx : x = k
      · subst hx; rw [if_pos rfl, val_append, ha, val_cons]; simp
      · rw [if_neg hx, val_append, val_append, val_cons, val_cons, if_neg (Ne.symm hx), if_neg (Ne.symm hx)]
    · simp only [read, h1, hg, he, if_true, hv, Option.getD_some]
    · simp only [find, h1, hg, he, if_true, hv, Option.map_some]
  · have hb : val b k = none := val_none fun x hx => ne _ _ (h3 x hx)
    have hv : val (a ++ b) k = none := by rw [val_append, ha, hb]; rfl
    have hins : insert c (a ++ b) k v = (true, a ++ (k, v) :: b) := by
      simp only [insert, h1, getElem?_mid]
      cases b with
      | nil => simp only [List.head?_nil, insertIdx_append]
      | cons e b => simp only [List.head?_cons, ecase (h3 e (by simp)), Bool.false_eq_true, if_false, insertIdx_append]
    have hacc : access c dflt (a ++ b) k = (a ++ (k, dflt) :: b, a.length) := by
      simp only [access, h1, getElem?_mid]
      cases b with
      | nil => simp only [List.head?_nil, insertIdx_append]
      | cons e b => simp only [List.head?_cons, ecase (h3 e (by simp)), Bool.false_eq_true, if_false, insertIdx_append]
    have hasg : assign c dflt (a ++ b) k v = a ++ (k, v) :: b := by
      simp only [assign, hacc, getElem?_mid, List.head?_cons]
      rw [List.set_append_right _ _ (by omega), Nat.sub_self]; rfl
    have hso : Sorted c (a ++ (k, v) :: b) := by
      rw [Sorted, List.pairwise_append] at hs ⊢
      rw [List.pairwise_cons]
      refine ⟨hs.1, ⟨h3, hs.2.1⟩, fun x hx y hy => ?_⟩
      rcases List.mem_cons.mp hy with rfl | hy
      · exact h2 x hx
      · exact hs.2.2 x hx y hy
    have hva : val (a ++ (k, v) :: b) = fun x => if x = k then some v else val (a ++ b) x := by
      funext x
      by_cases hx : x = k
      · subst hx; rw [if_pos rfl, val_append, ha, val_cons]; simp
      · rw [if_neg hx, val_append, val_append, val_cons, if_neg (Ne.symm hx)]
    refine ⟨⟨by rw [hins]; exact hso, fun _ => by rw [hins]; exact ⟨rfl, hva⟩, fun ⟨w, hw⟩ => by (rw [hv] at hw; cases hw)⟩,
      ⟨by rw [hasg]; exact hso, by rw [hasg]; exact hva⟩, ?_, ?_⟩
    · simp only [read, h1, getElem?_mid, hv, Option.getD_none]
      cases b with
      | nil => rfl
      | cons e b => simp only [List.head?_cons, ecase (h3 e (by simp)), Bool.false_eq_true, if_false]
    · simp only [find, h1, getElem?_mid, hv]
      cases b with
      | nil => simp
      | cons e b => simp [ecase (h3 e (by simp))]

end SMap

/-! ### The order of states -/

/-- Lexicographic order on lists of keys. -/
def llex : List (List Int) → List (List Int) → Bool
  | [], [] => false
  | [], _ :: _ => true
  | _ :: _, [] => false
  | a :: as, b :: bs => if ilex a b then true else if ilex b a then false else llex as bs

theorem llex_irrefl : ∀ a, llex a a = false
  | [] => rfl
  | a :: as => by simp [llex, ilex_irrefl, llex_irrefl as]

theorem llex_total : ∀ a b, llex a b = false → llex b a = false → a = b
  | [], [], _, _ => rfl
  | [], _ :: _, h, _ => by simp [llex] at h
  | _ :: _, [], _, h => by simp [llex] at h
  | a :: as, b :: bs, h1, h2 => by
    simp only [llex] at h1 h2
    cases e1 : ilex a b <;> cases e2 : ilex b a <;> simp only [e1, e2, Bool.false_eq_true, if_false, if_true, reduceCtorEq] at h1 h2
    rw [ilex_total a b e1 e2, llex_total as bs h1 h2]

theorem ilex_asymm {a b : List Int} (h : ilex a b = true) : ilex b a = false := by
  cases h' : ilex b a with
  | false => rfl
  | true => have := ilex_trans _ _ _ h h'; rw [ilex_irrefl] at this; cases this

theorem llex_trans : ∀ a b c, llex a b = true → llex b c = true → llex a c = true
  | [], [], _, h, _ => by simp [llex] at h
  | [], _ :: _, [], _, h => by simp [llex] at h
  | [], _ :: _, _ :: _, _, _ => rfl
  | _ :: _, [], _, h, _ => by simp [llex] at h
  | _ :: _, _ :: _, [], _, h => by simp [llex] at h
  | a :: as, b :: bs, c :: cs, h1, h2 => by
    have ih := llex_trans as bs cs
    simp only [llex] at h1 h2 ⊢
    by_cases e1 : ilex a b = true
    · by_cases e2 : ilex b c = true
      · rw [if_pos (ilex_trans _ _ _ e1 e2)]
      · rw [if_neg e2] at h2
        by_cases e3 : ilex c b = true
        · rw [if_pos e3] at h2; cases h2
        · rw [← ilex_total b c (by simpa using e2) (by simpa using e3), if_pos e1]
    · rw [if_neg e1] at h1
      by_cases e4 : ilex b a = true
      · rw [if_pos e4] at h1; cases h1
      · rw [if_neg e4] at h1
        have hab := ilex_total a b (by simpa using e1) (by simpa using e4)
        subst hab
        by_cases e2 : ilex a c = true
        · rw [if_pos e2]
        · rw [if_neg e2] at h2 ⊢
          by_cases e3 : ilex c a = true
          · rw [if_pos e3] at h2; cases h2
          · rw [if_neg e3] at h2 ⊢; exact ih h1 h2

theorem strKey_inj : ∀ a b : Str, strKey a = strKey b → a = b
  | [], [], _ => rfl
  | [], _ :: _, h => by
    simp only [strKey] at h; injection h with h _; omega
  | _ :: _, [], h => by
    simp only [strKey] at h; injection h with h _; omega
  | a :: as, b :: bs, h => by
    simp only [strKey] at h
    injection h with h1 h2
    rw [strKey_inj as bs h2, BitVec.eq_of_toNat_eq (show a.toNat = b.toNat by omega)]

/-- The key of a state. -/
def State.key (s : State) : List (List Int) := strKey s.name :: [(s.params.length : Int)] :: s.params.map Value.key

theorem paramsLt_eq : ∀ (as bs : List Value), (∀ v ∈ as, v.Ordinary) → (∀ v ∈ bs, v.Ordinary) → as.length = bs.length →
    paramsLt as bs = llex (as.map Value.key) (bs.map Value.key)
  | [], [], _, _, _ => rfl
  | [], _ :: _, _, _, h => by simp at h
  | _ :: _, [], _, _, h => by simp at h
  | a :: as, b :: bs, ha, hb, h => by
    simp only [paramsLt, List.map_cons, llex]
    rw [lessThan_eq_ilex a b (ha a (by simp)) (hb b (by simp)), lessThan_eq_ilex b a (hb b (by simp)) (ha a (by simp)),
      paramsLt_eq as bs (fun v hv => ha v (by simp [hv])) (fun v hv => hb v (by simp [hv])) (by simpa using h)]

theorem lt_eq_llex (a b : State) (ha : a.Ordinary) (hb : b.Ordinary) : a.lt b = llex a.key b.key := by
  have hs : ∀ x y, strLt x y = ilex (strKey x) (strKey y) := fun x y => codes_str.lt_iff trivial trivial
  unfold State.lt State.key
  simp only [llex, ← hs, ilex_single]
  by_cases h1 : strLt a.name b.name = true
  · rw [if_pos h1, if_pos h1]
  · rw [if_neg h1, if_neg h1]
    by_cases h2 : strLt b.name a.name = true
    · rw [if_pos h2, if_pos h2]
    · rw [if_neg h2, if_neg h2]
      simp only [decide_eq_true_eq]
      by_cases h3 : a.params.length < b.params.length
      · rw [if_pos h3, if_pos h3]
      · rw [if_neg h3, if_neg h3]
        by_cases h4 : a.params.length > b.params.length
        · rw [if_pos h4, if_pos h4]
        · rw [if_neg h4, if_neg h4]
          exact paramsLt_eq _ _ ha hb (by omega)

/-! ### When parameters are the same -/

theorem incomparable_iff (a b : Value) (ha : a.Ordinary) (hb : b.Ordinary) :
    a.key = b.key ↔ a.lessThan b = false ∧ b.lessThan a = false := by
  rw [lessThan_eq_ilex a b ha hb, lessThan_eq_ilex b a hb ha]
  constructor
  · intro h; rw [h]; exact ⟨ilex_irrefl _, ilex_irrefl _⟩
  · intro h; exact ilex_total _ _ h.1 h.2

theorem arrLoop_iff {α : Type} {lt : α → α → Bool} {r : α → α → Prop} (P : α → Prop)
    (hr : ∀ x y, P x → P y → (r x y ↔ lt x y = false ∧ lt y x = false)) : ∀ (ka kb : List Bool) (xs ys : List α), (∀ x ∈ xs, P x) → (∀ y ∈ ys, P y) →
    xs.length = ka.length → ys.length = kb.length → ka.length = kb.length →
    ((arrLtLoop lt ka kb xs ys = false ∧ arrLtLoop lt kb ka ys xs = false) ↔
      (ka = kb ∧ ∀ (i : Nat) x y, ka[i]? = some true → xs[i]? = some x → ys[i]? = some y → r x y)) := by
  intro ka
  induction ka with
  | nil =>
    intro kb xs ys _ _ h1 h2 h3
    cases kb with
    | nil => simp [arrLtLoop]
    | cons => simp at h3
  | cons k ka ih =>
    intro kb xs ys hx hy h1 h2 h3
    cases kb with
    | nil => simp at h3
    | cons k' kb =>
      cases xs with
      | nil => simp at h1
      | cons x xs =>
        cases ys with
        | nil => simp at h2
        | cons y ys =>
          have ih := ih kb xs ys (fun x h => hx x (by simp [h])) (fun y h => hy y (by simp [h])) (by simpa using h1) (by simpa using h2) (by simpa using h3)
          have hxy := hr x y (hx x (by simp)) (hy y (by simp))
          have step : ∀ (R : Prop), ((R ∧ ∀ (i : Nat) x' y', (k :: ka)[i]? = some true → (x :: xs)[i]? = some x' → (y :: ys)[i]? = some y' → r x' y') ↔
              (R ∧ (k = true → r x y) ∧ ∀ (i : Nat) x' y', ka[i]? = some true → xs[i]? = some x' → ys[i]? = some y' → r x' y')) := by
            intro R
            constructor
            · rintro ⟨hR, h⟩
              exact ⟨hR, fun hk => h 0 x y (by simp [hk]) rfl rfl, fun i x' y' h1 h2 h3 => h (i + 1) x' y' (by simpa using h1) (by simpa using h2) (by simpa using h3)⟩
            · rintro ⟨hR, h0, h⟩
              refine ⟨hR, fun i x' y' h1 h2 h3 => ?_⟩
              cases i with
              | zero => 
                simp only [List.getElem?_cons_zero, Option.some.injEq] at h1 h2 h3
                subst h2 h3; exact h0 h1
              | succ i => exact h i x' y' (by simpa using h1) (by simpa using h2) (by simpa using h3)
          rw [step]
          cases k <;> cases k' <;> simp only [arrLtLoop, Bool.not_true, Bool.not_false, Bool.false_and, Bool.and_false, Bool.and_true, Bool.true_and,
            Bool.false_eq_true, if_false, if_true, List.cons.injEq, reduceCtorEq, false_and, and_false, true_and, true_implies, false_implies]
          · exact ih
          · rw [hxy]
            cases e1 : lt x y <;> cases e2 : lt y x <;> simp [ih]

theorem arrLt_iff {α : Type} {lt : α → α → Bool} {r : α → α → Prop} (P : α → Prop)
    (hr : ∀ x y, P x → P y → (r x y ↔ lt x y = false ∧ lt y x = false)) (a b : Arr α) (ha : a.WF) (hb : b.WF) (pa : ∀ x ∈ a.contents, P x) (pb : ∀ x ∈ b.contents, P x) :
    (Arr.lt lt a b = false ∧ Arr.lt lt b a = false) ↔ SameArr r a b := by
  unfold Arr.lt
  by_cases h1 : a.size < b.size
  · rw [if_pos h1]
    constructor
    · rintro ⟨h, -⟩; cases h
    · rintro ⟨h, -⟩; unfold Arr.size at h1; rw [h] at h1; omega
  · rw [if_neg h1]
    by_cases h2 : a.size > b.size
    · rw [if_pos h2, if_pos h2]
      constructor
      · rintro ⟨-, h⟩; cases h
      · rintro ⟨h, -⟩; unfold Arr.size at h2; rw [h] at h2; omega
    · rw [if_neg h2, if_neg h2, if_neg h1]
      exact arrLoop_iff P hr _ _ _ _ pa pb ha hb (by unfold Arr.size at h1 h2; omega)

theorem dbl_iff (d e : Dbl) (hd : d ≠ .nan) (he : e ≠ .nan) : d = e ↔ Dbl.lt d e = false ∧ Dbl.lt e d = false := by
  cases d <;> cases e <;> simp_all [Dbl.lt]
  omega

theorem str_iff (a b : Str) : a = b ↔ strLt a b = false ∧ strLt b a = false := by
  rw [codes_str.lt_iff trivial trivial, codes_str.lt_iff trivial trivial]
  constructor
  · rintro rfl; exact ⟨ilex_irrefl _, ilex_irrefl _⟩
  · rintro ⟨h1, h2⟩; exact strKey_inj _ _ (ilex_total _ _ h1 h2)

theorem i32_iff (a b : I32) : a = b ↔ i32Lt a b = false ∧ i32Lt b a = false := by
  simp only [i32Lt, decide_eq_false_iff_not]
  constructor
  · rintro rfl; simp
  · rintro ⟨h1, h2⟩; exact BitVec.eq_of_toInt_eq (by omega)

theorem bool_iff (a b : Bool) : a = b ↔ boolLt a b = false ∧ boolLt b a = false := by
  cases a <;> cases b <;> simp [boolLt]

theorem same_iff (a b : Value) (ha : a.Ordinary) (hb : b.Ordinary) : SameValue a b ↔ a.key = b.key := by
  rw [incomparable_iff a b ha hb]
  constructor
  · intro h
    rw [← incomparable_iff a b ha hb]
    cases h with
    | unknown => rfl
    | scalar => rfl
    | @num p q d h1 h2 =>
      have hp : p.cls = 2 ∧ p.bodyKey = d.key := by
        cases p <;> simp only [number, Option.some.injEq, reduceCtorEq] at h1 <;> subst h1 <;> exact ⟨rfl, rfl⟩
      have hq : q.cls = 2 ∧ q.bodyKey = d.key := by
        cases q <;> simp only [number, Option.some.injEq, reduceCtorEq] at h2 <;> subst h2 <;> exact ⟨rfl, rfl⟩
      simp only [Value.key, hp.1, hp.2, hq.1, hq.2]
    | boolArr h => rw [incomparable_iff _ _ ha hb]; exact (arrLt_iff (fun _ => True) (fun x y _ _ => bool_iff x y) _ _ ha.2 hb.2 (by simp) (by simp)).mpr h
    | intArr h => rw [incomparable_iff _ _ ha hb]; exact (arrLt_iff (fun _ => True) (fun x y _ _ => i32_iff x y) _ _ ha.2 hb.2 (by simp) (by simp)).mpr h
    | strArr h => rw [incomparable_iff _ _ ha hb]; exact (arrLt_iff (fun _ => True) (fun x y _ _ => str_iff x y) _ _ ha.2 hb.2 (by simp) (by simp)).mpr h
    | realArr h =>
      rw [incomparable_iff _ _ ha hb]
      exact (arrLt_iff (fun r => Dbl.ofBits r ≠ .nan) (fun x y hx hy => dbl_iff _ _ hx hy) _ _ ha.2 hb.2 ha.1 hb.1).mpr h
  · intro h
    cases a with
    | unknown t =>
      cases b with
      | unknown u =>
        have := (incomparable_iff _ _ ha hb).mpr h
        simp only [Value.key, List.cons.injEq, true_and, and_true] at this
        rw [VType.code_inj (show t.code = u.code by omega)]; exact .unknown _
      | known q => exact absurd h.1 (by simp [Value.lessThan])
    | known p =>
      cases b with
      | unknown u => exact absurd h.2 (by simp [Value.lessThan])
      | known q =>
        have hk := (incomparable_iff _ _ ha hb).mpr h
        simp only [Value.key, List.cons.injEq, true_and] at hk
        obtain ⟨hc, hk⟩ := hk
        cases p <;> cases q <;> first | (simp [Payload.cls] at hc; done) | skip
        · rw [(bool_iff _ _).mpr h]; exact .scalar
        · rw [(i32_iff _ _).mpr h]; exact .scalar
        · exact .num rfl (by rw [number, (dbl_iff _ _ (ofI32_ne_nan _) hb.1).mpr h])
        · exact .num rfl (by rw [number, (dbl_iff _ _ ha.1 (ofI32_ne_nan _)).mpr h])
        · exact .num rfl (by rw [number, (dbl_iff _ _ ha.1 hb.1).mpr h])
        · rw [(str_iff _ _).mpr h]; exact .scalar
        · simp only [Payload.bodyKey, List.cons.injEq, and_true] at hk
          rw [BitVec.eq_of_toNat_eq (Int.ofNat.inj hk)]; exact .scalar
        · simp only [Payload.bodyKey, List.cons.injEq, and_true] at hk
          rw [BitVec.eq_of_toNat_eq (Int.ofNat.inj hk)]; exact .scalar
        · simp only [Payload.bodyKey, List.cons.injEq, and_true] at hk
          rw [BitVec.eq_of_toNat_eq (Int.ofNat.inj hk)]; exact .scalar
        · simp only [Payload.bodyKey, List.cons.injEq, and_true] at hk
          rw [BitVec.eq_of_toNat_eq (Int.ofNat.inj hk)]; exact .scalar
        · exact .boolArr ((arrLt_iff (fun _ => True) (fun x y _ _ => bool_iff x y) _ _ ha.2 hb.2 (by simp) (by simp)).mp h)
        · exact .intArr ((arrLt_iff (fun _ => True) (fun x y _ _ => i32_iff x y) _ _ ha.2 hb.2 (by simp) (by simp)).mp h)
        · exact .realArr ((arrLt_iff (fun r => Dbl.ofBits r ≠ .nan) (fun x y hx hy => dbl_iff _ _ hx hy) _ _ ha.2 hb.2 ha.1 hb.1).mp h)
        · exact .strArr ((arrLt_iff (fun _ => True) (fun x y _ _ => str_iff x y) _ _ ha.2 hb.2 (by simp) (by simp)).mp h)

theorem sameState_iff (a b : State) (ha : a.Ordinary) (hb : b.Ordinary) : SameState a b ↔ a.key = b.key := by
  have hl : ∀ (as bs : List Value), (∀ v ∈ as, v.Ordinary) → (∀ v ∈ bs, v.Ordinary) →
      (List.Forall₂ SameValue as bs ↔ as.map Value.key = bs.map Value.key) := by
    intro as
    induction as with
    | nil => intro bs _ _; cases bs <;> simp
    | cons a as ih =>
      intro bs h1 h2
      cases bs with
      | nil => simp
      | cons b bs =>
        rw [List.forall₂_cons, ih bs (fun v hv => h1 v (by simp [hv])) (fun v hv => h2 v (by simp [hv])),
          same_iff a b (h1 a (by simp)) (h2 b (by simp)), List.map_cons, List.map_cons, List.cons.injEq]
  unfold SameState State.key
  rw [hl _ _ ha hb]
  simp only [List.cons.injEq, and_true]
  constructor
  · rintro ⟨h1, h2⟩
    have := congrArg List.length h2
    rw [List.length_map, List.length_map] at this
    exact ⟨by rw [h1], by omega, h2⟩
  · rintro ⟨h1, -, h2⟩; exact ⟨strKey_inj _ _ h1, h2⟩

end Verif.Keys
