import Verif.Notify.Model

/-! Activation counts. -/
namespace Verif.Notify

/-- How many activations `c` is due from the active expressions below `n`. -/
def Graph.dueTo (G : Graph) (f : Nat → Nat) (c : Nat) : Nat → Nat
  | 0 => 0
  | n + 1 => G.dueTo f c n + if 0 < f n then (G.kind n).acts.count c else 0

def Graph.due (G : Graph) (s : Net) (c : Nat) : Nat := G.dueTo s.count c G.size

theorem dueTo_set (G : Graph) (f : Nat → Nat) (e v c : Nat) : ∀ n, G.dueTo (fun i => if i = e then v else f i) c n +
    (if e < n ∧ 0 < f e then (G.kind e).acts.count c else 0) =
    G.dueTo f c n + (if e < n ∧ 0 < v then (G.kind e).acts.count c else 0) := by
  intro n
  induction n with
  | zero => simp [Graph.dueTo]
  | succ n ih =>
    simp only [Graph.dueTo]
    by_cases hn : n = e
    · subst hn
      simp only [Nat.lt_irrefl, false_and, if_false, Nat.lt_succ_self, true_and, if_true] at ih ⊢
      omega
    · have h1 : (e < n + 1) ↔ e < n := by omega
      simp only [h1, if_neg hn]
      omega

theorem dueTo_pos (G : Graph) (f : Nat → Nat) (c : Nat) : ∀ n, 0 < G.dueTo f c n ↔ ∃ e < n, 0 < f e ∧ c ∈ (G.kind e).acts := by
  intro n
  induction n with
  | zero => simp [Graph.dueTo]
  | succ n ih =>
    simp only [Graph.dueTo]
    constructor
    · intro h
      by_cases h0 : 0 < G.dueTo f c n
      · obtain ⟨e, he, h⟩ := ih.1 h0
        exact ⟨e, by omega, h⟩
      · split at h
        · next hf => exact ⟨n, by omega, hf, List.count_pos_iff.1 (by omega)⟩
        · omega
    · rintro ⟨e, he, hf, hm⟩
      by_cases hn : e = n
      · subst hn
        rw [if_pos hf]
        have := List.count_pos_iff.2 hm
        omega
      · have := ih.2 ⟨e, by omega, hf, hm⟩
        omega

theorem Graph.size_of_counts (G : Graph) {e : Nat} (h : (G.kind e).counts = true) : e < G.size := by
  apply Classical.byContradiction
  intro hn
  rw [G.outside e (by omega)] at h
  simp [Kind.counts] at h

/-- The counts are `D` from outside and what active expressions owe, but for `P` activations and `Q` deactivations to come. -/
def Bal (G : Graph) (D P Q : Nat → Nat) (s : Net) : Prop :=
  ∀ c, (G.kind c).counts = true → s.count c + P c = D c + G.due s c + Q c

theorem due_set (G : Graph) (s : Net) {e : Nat} (he : e < G.size) (v c : Nat) :
    G.due (s.setCount e v) c + (if 0 < s.count e then (G.kind e).acts.count c else 0) =
    G.due s c + (if 0 < v then (G.kind e).acts.count c else 0) := by
  have := dueTo_set G s.count e v c G.size
  simp only [he, true_and] at this
  exact this

theorem set_count (s : Net) (e v c : Nat) : (s.setCount e v).count c = if c = e then v else s.count c := rfl

theorem activate_eq (G : Graph) (e : Nat) (s : Net) : G.activate e s =
    if (G.kind e).counts then
      if s.count e = 0 then (G.kind e).acts.foldl (fun s c => G.activate c s) (s.setCount e (s.count e + 1))
      else s.setCount e (s.count e + 1)
    else s := by
  rw [Graph.activate]
  simp

theorem deactivate_eq (G : Graph) (e : Nat) (s : Net) : G.deactivate e s =
    if (G.kind e).counts then
      if s.count e = 0 then { s with fault := true }
      else if s.count e = 1 then (G.kind e).acts.foldl (fun s c => G.deactivate c s) (s.setCount e (s.count e - 1))
      else s.setCount e (s.count e - 1)
    else s := by
  rw [Graph.deactivate]
  simp only [set_count, if_true, List.foldl_subtype, List.unattach_attach]
  split
  · split
    · rfl
    · next h =>
      by_cases h1 : s.count e = 1
      · rw [if_pos (by omega), if_pos h1]
      · rw [if_neg (by omega), if_neg h1]
  · rfl

/-- What `activate` and `deactivate` leave alone. -/
structure Still (s s' : Net) : Prop where
  listeners : s'.listeners = s.listeners

theorem still_fold {f : Net → Nat → Net} (as : List Nat) (h : ∀ a ∈ as, ∀ s, Still s (f s a)) : ∀ s, Still s (as.foldl f s) := by
  induction as with
  | nil => intro s; exact ⟨rfl⟩
  | cons a as ih =>
    intro s
    exact ⟨(ih (fun b hb => h b (List.mem_cons_of_mem _ hb)) (f s a)).listeners.trans (h a (by simp) s).listeners⟩

theorem activate_still (G : Graph) (e : Nat) : ∀ s, Still s (G.activate e s) := by
  induction e using Nat.strongRecOn with
  | _ e ih =>
    intro s
    rw [activate_eq]
    split
    · split
      · exact ⟨(still_fold (f := fun s c => G.activate c s) _ (fun a ha s => ih a (G.acts_lt e a ha) s) _).listeners⟩
      · exact ⟨rfl⟩
    · exact ⟨rfl⟩

theorem deactivate_still (G : Graph) (e : Nat) : ∀ s, Still s (G.deactivate e s) := by
  induction e using Nat.strongRecOn with
  | _ e ih =>
    intro s
    rw [deactivate_eq]
    split
    · split
      · exact ⟨rfl⟩
      · split
        · exact ⟨(still_fold (f := fun s c => G.deactivate c s) _ (fun a ha s => ih a (G.acts_lt e a ha) s) _).listeners⟩
        · exact ⟨rfl⟩
    · exact ⟨rfl⟩

/-- One more activation is due to `e`. -/
def plus (P : Nat → Nat) (e : Nat) : Nat → Nat := fun c => P c + if c = e then 1 else 0

theorem fold_bal {f : Net → Nat → Net} {B : (Nat → Nat) → Net → Prop} (as : List Nat)
    (hB : ∀ P P' s, (∀ c, P c = P' c) → B P s → B P' s)
    (h : ∀ a ∈ as, ∀ P s, B (plus P a) s → B P (f s a)) : ∀ P s, B (fun c => P c + as.count c) s → B P (as.foldl f s) := by
  induction as with
  | nil => intro P s hs; exact hB _ _ _ (by simp) hs
  | cons a as ih =>
    intro P s hs
    refine ih (fun b hb => h b (List.mem_cons_of_mem _ hb)) P (f s a) ?_
    refine h a (by simp) _ s (hB _ _ _ (fun c => ?_) hs)
    unfold plus
    rw [List.count_cons]
    by_cases hc : c = a
    · subst hc; simp; omega
    · have : (a == c) = false := by simpa using fun h => hc h.symm
      simp [this, hc]

theorem activate_bal (G : Graph) (D Q : Nat → Nat) (e : Nat) : ∀ P s, Bal G D (plus P e) Q s ∧ s.fault = false →
    Bal G D P Q (G.activate e s) ∧ (G.activate e s).fault = false := by
  induction e using Nat.strongRecOn with
  | _ e ih =>
    intro P s ⟨hb, hf⟩
    rw [activate_eq]
    split
    · next hc =>
      have he := G.size_of_counts hc
      split
      · next h0 =>
        refine fold_bal (f := fun s c => G.activate c s) (B := fun P s => Bal G D P Q s ∧ s.fault = false) _
          (fun P P' s h hB => ⟨fun c hk => by rw [← h c]; exact hB.1 c hk, hB.2⟩) (fun a ha P s hs => ih a (G.acts_lt e a ha) P s hs) P _ ?_
        refine ⟨fun c hk => ?_, hf⟩
        have h1 := hb c hk
        try dsimp only at h1 ⊢
        have h2 := due_set G s he (s.count e + 1) c
        rw [if_neg (by omega), if_pos (by omega)] at h2
        unfold plus at h1
        rw [set_count]
        split
        · next hce => subst hce; rw [if_pos rfl] at h1; omega
        · next hce => rw [if_neg hce] at h1; omega
      · next h0 =>
        refine ⟨fun c hk => ?_, hf⟩
        have h1 := hb c hk
        try dsimp only at h1 ⊢
        have h2 := due_set G s he (s.count e + 1) c
        rw [if_pos (by omega), if_pos (by omega)] at h2
        unfold plus at h1
        rw [set_count]
        split
        · next hce => subst hce; rw [if_pos rfl] at h1; omega
        · next hce => rw [if_neg hce] at h1; omega
    · next hc =>
      refine ⟨fun c hk => ?_, hf⟩
      have h1 := hb c hk
      unfold plus at h1
      rw [if_neg (fun h => by rw [h] at hk; exact hc hk)] at h1
      exact h1

theorem deactivate_bal (G : Graph) (D : Nat → Nat) (e : Nat) : ∀ Q s, Bal G D (fun _ => 0) (plus Q e) s ∧ s.fault = false →
    Bal G D (fun _ => 0) Q (G.deactivate e s) ∧ (G.deactivate e s).fault = false := by
  induction e using Nat.strongRecOn with
  | _ e ih =>
    intro Q s ⟨hb, hf⟩
    rw [deactivate_eq]
    split
    · next hc =>
      have he := G.size_of_counts hc
      have hpos : s.count e ≠ 0 := by
        have h1 := hb e hc
        unfold plus at h1
        rw [if_pos rfl] at h1
        simp only at h1
        omega
      rw [if_neg hpos]
      split
      · next h0 =>
        refine fold_bal (f := fun s c => G.deactivate c s) (B := fun Q s => Bal G D (fun _ => 0) Q s ∧ s.fault = false) _
          (fun P P' s h hB => ⟨fun c hk => by rw [← h c]; exact hB.1 c hk, hB.2⟩) (fun a ha P s hs => ih a (G.acts_lt e a ha) P s hs) Q _ ?_
        refine ⟨fun c hk => ?_, hf⟩
        have h1 := hb c hk
        try dsimp only at h1 ⊢
        have h2 := due_set G s he (s.count e - 1) c
        rw [if_pos (by omega), if_neg (by omega)] at h2
        unfold plus at h1
        rw [set_count]
        split
        · next hce => subst hce; rw [if_pos rfl] at h1; omega
        · next hce => rw [if_neg hce] at h1; omega
      · next h0 =>
        refine ⟨fun c hk => ?_, hf⟩
        have h1 := hb c hk
        try dsimp only at h1 ⊢
        have h2 := due_set G s he (s.count e - 1) c
        rw [if_pos (by omega), if_pos (by omega)] at h2
        unfold plus at h1
        rw [set_count]
        split
        · next hce => subst hce; rw [if_pos rfl] at h1; omega
        · next hce => rw [if_neg hce] at h1; omega
    · next hc =>
      refine ⟨fun c hk => ?_, hf⟩
      have h1 := hb c hk
      unfold plus at h1
      rw [if_neg (fun h => by rw [h] at hk; exact hc hk)] at h1
      exact h1

end Verif.Notify
