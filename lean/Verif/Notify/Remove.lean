import Verif.Notify.Lemmas

/-! What removing a listener does. -/
namespace Verif.Notify

/-- No lookup has so many parameters that `GeneralExprVec` (`ExprVec.cc:225-290`) holds them. -/
def Graph.Small (G : Graph) : Prop := ∀ e n ps t, G.kind e = .lookup n ps t → ps.length ≤ 4

/-- The effect of `remove`. -/
structure Removed (G : Graph) (X : Nat → Prop) (e : Nat) (W : Nat → Listener → Prop) (s s' : Net) : Prop where
  exact : ∀ i x, Free X x → (x ∈ s'.listeners i ↔ x ∈ s.listeners i ∧ ¬ W i x)
  above : ∀ i, e < i → s'.listeners i = s.listeners i
  up : Up G X s → Up G X s'
  down : G.Small → Down G X s → Down G X s'
  nd : Nd s'
  count : s'.count = s.count
  fault : s'.fault = s.fault

theorem leaving_true {G : Graph} (hs : G.Small) (q : Nat) : ∀ o ∈ G.leaving q, o.1 = true := by
  intro o ho
  unfold Graph.leaving at ho
  split at ho
  · next n ps t hk =>
    simp only [List.mem_append, List.mem_cons, List.mem_map] at ho
    rcases ho with (⟨c, h, rfl⟩ | ⟨c, h, rfl⟩) | rfl | ⟨c, h, rfl⟩
    · rfl
    · simp [hs q n ps t hk]
    · rfl
    · rfl
  · obtain ⟨c, h, rfl⟩ := List.mem_map.1 ho
    rfl

theorem leaving_hosts (G : Graph) (q : Nat) : ∀ c ∈ G.hosts q, ∃ b, (b, c) ∈ G.leaving q := by
  intro c hc
  unfold Graph.hosts at hc
  unfold Graph.leaving
  split at hc
  · next n ps t hk =>
    rw [hk]
    simp only [List.mem_append, List.mem_cons, List.mem_map] at hc ⊢
    rcases hc with (h | h | h) | h
    · exact ⟨true, .inr (.inr ⟨c, h, rfl⟩)⟩
    · exact ⟨true, .inr (.inl (by rw [h]))⟩
    · exact ⟨decide (ps.length ≤ 4), .inl (.inr ⟨c, h, rfl⟩)⟩
    · exact ⟨true, .inl (.inl ⟨c, h, rfl⟩)⟩
  · next hk =>
    refine ⟨true, ?_⟩
    split
    · next n ps t h => exact absurd h (hk n ps t)
    · exact List.mem_map.2 ⟨c, hc, rfl⟩

/-- The effect of what a propagator does when it leaves. -/
structure Left (G : Graph) (Y : Nat → Prop) (q m : Nat) (os : List (Bool × Nat)) (s s' : Net) : Prop where
  others : ∀ i x, Free Y x → x ≠ .expr q → (x ∈ s'.listeners i ↔ x ∈ s.listeners i)
  own : (∀ o ∈ os, o.1 = true) → ∀ i, (.expr q ∈ s'.listeners i ↔ .expr q ∈ s.listeners i ∧ ¬ ∃ o ∈ os, G.place o.2 = some i)
  above : ∀ i, m < i → s'.listeners i = s.listeners i
  up : Up G Y s → Up G Y s'
  down : G.Small → (∀ o ∈ os, o.1 = true) → Down G Y s → Down G Y s'
  nd : Nd s'
  count : s'.count = s.count
  fault : s'.fault = s.fault

theorem left_fold (G : Graph) (Y : Nat → Prop) (q m : Nat) (hq : Y q) (os : List (Bool × Nat))
    (ih : ∀ o ∈ os, ∀ s, Nd s → Removed G Y o.2 (At G o.2 (.expr q)) s (G.remove o.2 (.expr q) s))
    (hY : ∀ o ∈ os, ∀ p, Y p → o.2 < p) (hm : ∀ o ∈ os, o.2 ≤ m) : ∀ s, Nd s →
    Left G Y q m os s (os.foldl (G.op q) s) := by
  induction os with
  | nil =>
    intro s hs
    exact ⟨fun _ _ _ _ => Iff.rfl, fun _ i => by simp, fun _ _ => rfl, fun h => h, fun _ _ h => h, hs, rfl, rfl⟩
  | cons o os ih' =>
    intro s hs
    have hfold : (o :: os).foldl (G.op q) s = os.foldl (G.op q) (G.op q s o) := rfl
    rw [hfold]
    have hom := hm o (by simp)
    obtain ⟨b, c⟩ := o
    have hs1 : Nd (G.op q s (b, c)) := by
      unfold Graph.op
      cases b with
      | true => exact (ih (true, c) (by simp) s hs).nd
      | false => exact (add_added G c Y (.expr q) hq (hY (false, c) (by simp)) s).nd hs
    have L := ih' (fun o ho => ih o (List.mem_cons_of_mem _ ho)) (fun o ho => hY o (List.mem_cons_of_mem _ ho))
      (fun o ho => hm o (List.mem_cons_of_mem _ ho)) (G.op q s (b, c)) hs1
    cases b with
    | true =>
      have e1 : G.op q s (true, c) = G.remove c (.expr q) s := rfl
      rw [e1] at L ⊢
      have R := ih (true, c) (by simp) s hs
      refine ⟨fun i x hf hx => ?_, fun h i => ?_, fun i hi => (L.above i hi).trans (R.above i (by simp only at hom ⊢; omega)),
        fun u => L.up (R.up u), fun h1 h2 d => L.down h1 (fun o ho => h2 o (List.mem_cons_of_mem _ ho)) (R.down h1 d), L.nd,
        L.count.trans R.count, L.fault.trans R.fault⟩
      · rw [L.others i x hf hx, R.exact i x hf]
        exact ⟨fun h => h.1, fun h => ⟨h, fun h' => hx h'.2⟩⟩
      · rw [L.own (fun o ho => h o (List.mem_cons_of_mem _ ho)) i, R.exact i (.expr q) hq]
        constructor
        · rintro ⟨⟨h1, h2⟩, h3⟩
          refine ⟨h1, ?_⟩
          rintro ⟨o, ho, hp⟩
          rcases List.mem_cons.1 ho with rfl | ho
          · exact h2 ⟨hp, rfl⟩
          · exact h3 ⟨o, ho, hp⟩
        · rintro ⟨h1, h2⟩
          exact ⟨⟨h1, fun h' => h2 ⟨(true, c), by simp, h'.1⟩⟩, fun ⟨o, ho, hp⟩ => h2 ⟨o, List.mem_cons_of_mem _ ho, hp⟩⟩
    | false =>
      have e1 : G.op q s (false, c) = G.add c (.expr q) s := rfl
      rw [e1] at L ⊢
      have A := add_added G c Y (.expr q) hq (hY (false, c) (by simp)) s
      refine ⟨fun i x hf hx => ?_, fun h i => ?_, fun i hi => (L.above i hi).trans (A.above i (by simp only at hom ⊢; omega)),
        fun u => L.up (A.up u), fun h1 h2 d => ?_, L.nd, L.count.trans A.count, L.fault.trans A.fault⟩
      · rw [L.others i x hf hx]
        refine ⟨fun h => ?_, A.mono i x⟩
        rcases A.new i x hf h with h | h
        · exact h
        · exact absurd h.2 hx
      · have := h (false, c) (by simp); simp at this
      · have := h2 (false, c) (by simp); simp at this

theorem remove_removed (G : Graph) (e : Nat) : ∀ (X : Nat → Prop) (l : Listener), Free X l → (∀ p, X p → e < p) → ∀ s,
    Nd s → Removed G X e (At G e l) s (G.remove e l s) := by
  induction e using Nat.strongRecOn with
  | _ e ih =>
    intro X l hl hX s hs
    rw [Graph.remove_eq]
    cases hp : G.place e with
    | none =>
      exact ⟨fun i x _ => by simp [At, hp], fun _ _ => rfl, fun h => h, fun _ h => h, hs, rfl, rfl⟩
    | some q =>
      have hq := G.place_le hp
      have hXq : ¬ X q := fun h => by have := hX q h; omega
      simp only
      have hW : ∀ i x, At G e l i x ↔ (i = q ∧ x = l) := by
        intro i x; unfold At; rw [hp]; simp [eq_comm]
      have hl' : ∀ p, ¬ X p → l ≠ .expr p := by
        intro p h1 h2; rw [h2] at hl; exact h1 hl
      obtain ⟨s1, hs1⟩ : ∃ s1, s1 = s.forget q l := ⟨_, rfl⟩
      have hmem : ∀ i x, x ∈ s1.listeners i ↔ x ∈ s.listeners i ∧ ¬ (i = q ∧ x = l) := by
        intro i x; rw [hs1]; exact mem_forget hs q l i x
      have hoth : ∀ i, i ≠ q → s1.listeners i = s.listeners i := by
        intro i hi; rw [hs1]; unfold Net.forget; simp only; rw [if_neg hi]
      have hnd : Nd s1 := by rw [hs1]; exact nodup_forget hs q l
      have hc1 : s1.count = s.count := by rw [hs1]; rfl
      have hf1 : s1.fault = s.fault := by rw [hs1]; rfl
      rw [← hs1]
      have hup : Up G X s → Up G X s1 := by
        intro u p hp1 hp2 hp3 c hc q' hq'
        rw [hmem]
        refine ⟨u p hp1 hp2 (fun h => hp3 ?_) c hc q' hq', fun h => hl' p hp1 h.2.symm⟩
        cases hh : s1.listeners p with
        | nil => rfl
        | cons x xs =>
          have := ((hmem p x).1 (by rw [hh]; simp)).1
          rw [h] at this; simp at this
      by_cases hj : (G.kind q).prop = true ∧ s1.listeners q = []
      · have hJ : G.leave q s1 = (G.leaving q).foldl (G.op q) s1 := by
          unfold Graph.leave; rw [if_pos hj]
        obtain ⟨Y, hY⟩ : ∃ Y : Nat → Prop, Y = fun p => X p ∨ p = q := ⟨_, rfl⟩
        have hYq : Y q := by rw [hY]; exact .inr rfl
        have hYX : ∀ p, ¬ X p → p ≠ q → ¬ Y p := by
          intro p h1 h2 h3; rw [hY] at h3; rcases h3 with h3 | h3
          · exact h1 h3
          · exact h2 h3
        have hXY : ∀ p, X p → Y p := fun p h => by rw [hY]; exact .inl h
        have hYlt : ∀ c, c < q → ∀ p, Y p → c < p := by
          intro c hc p hp; rw [hY] at hp
          rcases hp with hp | hp
          · have := hX p hp; omega
          · omega
        obtain ⟨L, hself⟩ : Left G Y q q (G.leaving q) s1 (G.leave q s1) ∧ (G.leave q s1).listeners q = s1.listeners q := by
          by_cases h0 : q = 0
          · have hn : G.leaving q = [] := by
              cases hh : G.leaving q with
              | nil => rfl
              | cons c cs => have := G.leaving_lt q c (by rw [hh]; simp); omega
            rw [hJ, hn]
            exact ⟨left_fold G Y q q hYq [] (by simp) (by simp) (by simp) s1 hnd, rfl⟩
          · have h1 : Left G Y q (q - 1) (G.leaving q) s1 (G.leave q s1) := by
              rw [hJ]
              refine left_fold G Y q (q-1) hYq _ (fun o ho s hs => ?_) (fun o ho => ?_) (fun o ho => ?_) s1 hnd
              · have := G.leaving_lt q o ho
                exact ih o.2 (by omega) Y (.expr q) hYq (hYlt o.2 this) s hs
              · exact hYlt o.2 (G.leaving_lt q o ho)
              · have := G.leaving_lt q o ho; omega
            exact ⟨⟨h1.others, h1.own, fun i hi => h1.above i (by omega), h1.up, h1.down, h1.nd, h1.count, h1.fault⟩,
              h1.above q (by omega)⟩
        generalize G.leave q s1 = s2 at L hself
        refine ⟨fun i x hf => ?_, fun i hi => ?_, fun u => ?_, fun hsm d => ?_, L.nd, L.count.trans hc1, L.fault.trans hf1⟩
        · rw [L.others i x ?_ ?_, hmem i x, hW]
          · cases x with
            | ext n => trivial
            | expr p => exact hXY p hf
          · intro h; rw [h] at hf; exact hXq hf
        · rw [L.above i (by omega), hoth i (by omega)]
        · have U := L.up ((hup u).mono hXY)
          intro p hp1 hp2 hp3 c hc q' hq'
          have hpq : p ≠ q := by
            intro h; rw [h] at hp3; exact hp3 (hself.trans hj.2)
          exact U p (hYX p hp1 hpq) hp2 hp3 c hc q' hq'
        · have D1 : Down G Y s1 := by
            intro p hp1 q' hm
            obtain ⟨h1, h2, h3⟩ := d p (fun h => hp1 (hXY p h)) q' ((hmem q' _).1 hm).1
            have hpq : p ≠ q := fun h => hp1 (h ▸ hYq)
            exact ⟨h1, by rw [hoth p hpq]; exact h2, h3⟩
          have hall := leaving_true hsm q
          have D2 := L.down hsm hall D1
          intro p hp1 q' hm
          by_cases hpq : p = q
          · exfalso
            subst hpq
            obtain ⟨h1, h2⟩ := (L.own hall q').1 hm
            obtain ⟨_, _, c, hc, hpl⟩ := d p hp1 q' ((hmem q' _).1 h1).1
            obtain ⟨b, hb⟩ := leaving_hosts G p c hc
            exact h2 ⟨(b, c), hb, hpl⟩
          · exact D2 p (hYX p hp1 hpq) q' hm
      · have hJ : G.leave q s1 = s1 := by unfold Graph.leave; rw [if_neg hj]
        rw [hJ]
        refine ⟨fun i x _ => by rw [hmem, hW], fun i hi => hoth i (by omega), hup, fun _ d => ?_, hnd, hc1, hf1⟩
        intro p hp1 q' hm
        obtain ⟨h1, h2, h3⟩ := d p hp1 q' ((hmem q' _).1 hm).1
        refine ⟨h1, fun h => ?_, h3⟩
        by_cases hpq : p = q
        · rw [hpq] at h h1; exact hj ⟨h1, h⟩
        · rw [hoth p hpq] at h; exact h2 h

end Verif.Notify
