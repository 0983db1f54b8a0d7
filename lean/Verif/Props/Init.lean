import Verif.Init.Spec
set_option autoImplicit false
/-!
C156: variables start with their declared values, whenever and however often their node runs.
-/
namespace Verif.Init
variable {α : Type} {init : Nat → Initializer α} {rank : Nat → Nat} {vars : List Nat}

theorem conv (hr : Acyclic init rank) {s : St α} {x z : Nat} {v : Option α} (h : Means init (s.inc x) z v) (hz : rank z < rank x) : Means init s z v := by
  induction h with
  | inUse z hc =>
    have hne : z ≠ x := fun e => by subst e; omega
    have : 0 < s.count z := by simpa [St.inc, hne] using hc
    exact Means.inUse z this
  | absent z hc hi =>
    have hne : z ≠ x := fun e => by subst e; omega
    exact Means.absent z (by simpa [St.inc, hne] using hc) hi
  | lit z v hc hi =>
    have hne : z ≠ x := fun e => by subst e; omega
    exact Means.lit z v (by simpa [St.inc, hne] using hc) hi
  | var z y v hc hi _ ih =>
    have hne : z ≠ x := fun e => by subst e; omega
    exact Means.var z y v (by simpa [St.inc, hne] using hc) hi (ih (Nat.lt_trans (hr z y hi) hz))

/-- What starting does to values. -/
def Started (init : Nat → Initializer α) (s s' : St α) : Prop :=
  (∀ z, s.count z ≤ s'.count z) ∧ (∀ z, 0 < s.count z → s'.val z = s.val z) ∧ ∀ z, s.count z = 0 → 0 < s'.count z → Means init s z (s'.val z)

theorem activate_val (hr : Acyclic init rank) (k : Nat) : ∀ (s : St α) (x : Nat), rank x < k →
    ∃ s', activate init k s x = some s' ∧ 0 < s'.count x ∧ Started init s s' ∧ ∀ z, s.count z = 0 → 0 < s'.count z → rank z ≤ rank x := by
  induction k with
  | zero => intro s x h; omega
  | succ k ih =>
    intro s x hk
    by_cases hc : s.count x = 0
    · have hinc : ∀ z, z ≠ x → (s.inc x).count z = s.count z := fun z hz => by simp [St.inc, hz]
      have hx1 : (s.inc x).count x = s.count x + 1 := by simp [St.inc]
      have easy : ∀ v, Means init s x v → 0 < ((s.inc x).set x v).count x ∧ Started init s ((s.inc x).set x v) ∧
          ∀ z, s.count z = 0 → 0 < ((s.inc x).set x v).count z → rank z ≤ rank x := by
        intro v hm
        have hnew : ∀ z, s.count z = 0 → 0 < ((s.inc x).set x v).count z → z = x := by
          intro z h0 h1
          apply Classical.byContradiction
          intro hz
          have : ((s.inc x).set x v).count z = s.count z := hinc z hz
          omega
        refine ⟨by show 0 < (s.inc x).count x; omega, ⟨?_, ?_, ?_⟩, ?_⟩
        · intro z
          show s.count z ≤ (s.inc x).count z
          by_cases hz : z = x
          · subst hz; omega
          · rw [hinc z hz]; exact Nat.le_refl _
        · intro z hz
          have : z ≠ x := fun e => by subst e; omega
          simp [St.set, St.inc, this]
        · intro z h0 h1
          have := hnew z h0 h1
          subst this
          simpa [St.set] using hm
        · intro z h0 h1
          rw [hnew z h0 h1]; exact Nat.le_refl _
      cases hi : init x with
      | absent => exact ⟨_, by simp only [activate, if_pos hc, hi], easy none (Means.absent x hc hi)⟩
      | lit v => exact ⟨_, by simp only [activate, if_pos hc, hi], easy v (Means.lit x v hc hi)⟩
      | var y =>
        have hy := hr x y hi
        have hyx : y ≠ x := fun e => by subst e; omega
        obtain ⟨s2, h2, hp, ⟨hm, hkeep, hnew⟩, hrk⟩ := ih (s.inc x) y (by omega)
        refine ⟨s2.set x (s2.read y), by simp only [activate, if_pos hc, hi, h2, Option.map_some], ?_, ⟨?_, ?_, ?_⟩, ?_⟩
        · show 0 < s2.count x
          have := hm x; omega
        · intro z
          show s.count z ≤ s2.count z
          have := hm z
          by_cases hz : z = x
          · subst hz; omega
          · rw [hinc z hz] at this; exact this
        · intro z hz
          have hne : z ≠ x := fun e => by subst e; omega
          have : s2.val z = s.val z := hkeep z (by rw [hinc z hne]; exact hz)
          simpa [St.set, hne] using this
        · intro z h0 h1
          by_cases hz : z = x
          · subst hz
            have hread : s2.read y = s2.val y := by simp [St.read, hp]
            have : Means init s y (s2.val y) := by
              rcases Nat.eq_zero_or_pos (s.count y) with hy0 | hy0
              · exact conv hr (hnew y (by rw [hinc y hyx]; exact hy0) hp) hy
              · have : s2.val y = s.val y := hkeep y (by rw [hinc y hyx]; exact hy0)
                rw [this]; exact Means.inUse y hy0
            simp only [St.set, if_true, hread]
            exact Means.var _ y _ hc hi this
          · have h1' : 0 < s2.count z := h1
            have h0' : (s.inc x).count z = 0 := by rw [hinc z hz]; exact h0
            have := conv hr (hnew z h0' h1') (Nat.lt_of_le_of_lt (hrk z h0' h1') hy)
            simpa [St.set, hz] using this
        · intro z h0 h1
          by_cases hz : z = x
          · rw [hz]; exact Nat.le_refl _
          · have := hrk z (by rw [hinc z hz]; exact h0) h1
            omega
    · refine ⟨s.inc x, by simp only [activate, if_neg hc], by simp [St.inc], ⟨?_, ?_, ?_⟩, ?_⟩
      · intro z; simp only [St.inc]; split <;> omega
      · intro z _; rfl
      · intro z h0 h1
        by_cases hz : z = x
        · subst hz; exact absurd h0 hc
        · simp [St.inc, hz] at h1; omega
      · intro z h0 h1
        by_cases hz : z = x
        · subst hz; exact absurd h0 hc
        · simp [St.inc, hz] at h1; omega

theorem means_back {s s1 : St α} (h : Started init s s1) {z : Nat} {v : Option α} (hm : Means init s1 z v) : Means init s z v := by
  obtain ⟨h1, h2, h3⟩ := h
  induction hm with
  | inUse z hc =>
    rcases Nat.eq_zero_or_pos (s.count z) with h0 | h0
    · exact h3 z h0 hc
    · rw [h2 z h0]; exact Means.inUse z h0
  | absent z hc hi => exact Means.absent z (by have := h1 z; omega) hi
  | lit z v hc hi => exact Means.lit z v (by have := h1 z; omega) hi
  | var z y v hc hi _ ih => exact Means.var z y v (by have := h1 z; omega) hi ih

theorem activateAll_val (hr : Acyclic init rank) (k : Nat) (L : List Nat) : ∀ s : St α, (∀ x ∈ L, rank x < k) →
    ∃ s', activateAll init k s L = some s' ∧ (∀ x ∈ L, 0 < s'.count x) ∧ Started init s s' := by
  induction L with
  | nil => intro s _; exact ⟨s, rfl, by simp, fun _ => Nat.le_refl _, fun _ _ => rfl, fun z h0 h1 => by omega⟩
  | cons x r ih =>
    intro s hk
    obtain ⟨s1, a1, p1, st1, -⟩ := activate_val hr k s x (hk x List.mem_cons_self)
    obtain ⟨s2, a2, p2, st2⟩ := ih s1 (fun y hy => hk y (List.mem_cons_of_mem _ hy))
    refine ⟨s2, by simp only [activateAll, a1, Option.bind_some, a2], ?_, ?_, ?_, ?_⟩
    · intro y hy
      rcases List.mem_cons.1 hy with rfl | hy
      · exact Nat.lt_of_lt_of_le p1 (st2.1 _)
      · exact p2 y hy
    · intro z; exact Nat.le_trans (st1.1 z) (st2.1 z)
    · intro z hz
      rw [st2.2.1 z (Nat.lt_of_lt_of_le hz (st1.1 z)), st1.2.1 z hz]
    · intro z h0 h1
      rcases Nat.eq_zero_or_pos (s1.count z) with c | c
      · exact means_back st1 (st2.2.2 z c h1)
      · rw [st2.2.1 z c]; exact st1.2.2 z h0 c

/-- **C156, start.**  A node activates its variables, whatever its state and theirs: each has its declared value, and every variable that was in use has the value it had. -/
theorem c156_start (hr : Acyclic init rank) (k : Nat) (s : St α) (L : List Nat) (hk : ∀ x ∈ L, rank x < k) :
    ∃ s', activateAll init k s L = some s' ∧ (∀ x ∈ L, 0 < s'.count x ∧ Means init s x (s'.read x)) ∧ ∀ z, 0 < s.count z → s'.read z = s.read z := by
  obtain ⟨s', h1, h2, h3, h4, h5⟩ := activateAll_val hr k L s hk
  refine ⟨s', h1, ?_, ?_⟩
  · intro x hx
    have hp := h2 x hx
    have hread : s'.read x = s'.val x := by simp [St.read, hp]
    refine ⟨hp, ?_⟩
    rw [hread]
    rcases Nat.eq_zero_or_pos (s.count x) with c | c
    · exact h5 x c hp
    · rw [h4 x c]; exact Means.inUse x c
  · intro z hz
    have := Nat.lt_of_lt_of_le hz (h3 z)
    simp [St.read, hz, this, h4 z hz]

/-- **C156, the declared value is one value.** -/
theorem c156_unique {s : St α} {x : Nat} {v w : Option α} (h : Means init s x v) (g : Means init s x w) : v = w := by
  induction h generalizing w with
  | inUse x hc => cases g <;> first | rfl | omega
  | absent x hc hi => cases g <;> simp_all
  | lit x v hc hi => cases g <;> simp_all
  | var x y v hc hi _ ih =>
    cases g with
    | inUse _ h => omega
    | absent _ _ h => rw [hi] at h; cases h
    | lit _ _ _ h => rw [hi] at h; cases h
    | var _ z _ _ h g => rw [hi] at h; cases h; exact ih g

/-- **C156, the order of declarations does not matter.** -/
theorem c156_order (hr : Acyclic init rank) (k : Nat) (s a b : St α) (L M : List Nat) (hp : L.Perm M) (hk : ∀ x ∈ L, rank x < k)
    (ha : activateAll init k s L = some a) (hb : activateAll init k s M = some b) : ∀ x ∈ L, a.read x = b.read x := by
  intro x hx
  obtain ⟨a', h1, h2, -⟩ := c156_start hr k s L hk
  obtain ⟨b', g1, g2, -⟩ := c156_start hr k s M (fun y hy => hk y (hp.mem_iff.2 hy))
  rw [ha] at h1; rw [hb] at g1; cases h1; cases g1
  exact c156_unique (h2 x hx).2 (g2 x (hp.mem_iff.1 hx)).2

theorem countP_turn {x : Nat} {p q : Nat → Bool} : ∀ {l : List Nat}, l.Nodup → x ∈ l → (∀ z, z ≠ x → q z = p z) → p x = false →
    l.countP q = l.countP p + (if q x then 1 else 0) := by
  intro l
  induction l with
  | nil => intro _ h; cases h
  | cons a r ih =>
    intro hn hx hs hp
    obtain ⟨ha, hn⟩ := List.nodup_cons.1 hn
    by_cases hax : a = x
    · subst hax
      have : r.countP q = r.countP p := by
        apply List.countP_congr
        intro z hz
        rw [hs z (fun e => ha (e ▸ hz))]
      rw [List.countP_cons, List.countP_cons, this, hp]
      simp
    · have hx' : x ∈ r := (List.mem_cons.1 hx).resolve_left (fun e => hax e.symm)
      rw [List.countP_cons, List.countP_cons, ih hn hx' hs hp, hs a hax]
      omega

/-- Is `x` initialized from `y`? -/
def from1 (init : Nat → Initializer α) (x y : Nat) : Nat := match init x with | .var z => if z = y then 1 else 0 | _ => 0

theorem users_turn (hv : Vars init vars) {x : Nat} (hx : x ∈ vars) {s s' : St α} (hs : ∀ z, z ≠ x → s'.count z = s.count z) (h0 : s.count x = 0) (h1 : 0 < s'.count x) (y : Nat) :
    users init vars s' y = users init vars s y + from1 init x y := by
  unfold users
  rw [countP_turn (x := x) (p := fun z => (match init z with | .var y' => y' == y | _ => false) && decide (0 < s.count z)) hv.1 hx ?_ (by simp [h0])]
  · congr 1
    unfold from1
    cases hi : init x with
    | var z => by_cases hz : z = y <;> simp [h1, hz]
    | _ => simp
  · intro z hz
    simp only [hs z hz]
    cases init z <;> rfl

theorem users_same {s s' : St α} (hs : ∀ z, 0 < s'.count z ↔ 0 < s.count z) (y : Nat) : users init vars s' y = users init vars s y := by
  unfold users
  apply List.countP_congr
  intro z _
  rw [show decide (0 < s'.count z) = decide (0 < s.count z) from decide_eq_decide.2 (hs z)]

theorem from1_var {x y : Nat} (hi : init x = .var y) (z : Nat) : from1 init x z = if y = z then 1 else 0 := by simp [from1, hi]

theorem activate_balanced (hv : Vars init vars) (k : Nat) : ∀ (h : Nat → Int) (s s' : St α) (x : Nat), x ∈ vars → Balanced init vars h s → activate init k s x = some s' →
    Balanced init vars (fun z => if z = x then h z + 1 else h z) s' := by
  induction k with
  | zero => intro h s s' x _ _ ha; cases ha
  | succ k ih =>
    intro h s s' x hx hb ha
    simp only [activate] at ha
    by_cases hc : s.count x = 0
    · rw [if_pos hc] at ha
      have hu := users_turn hv hx (s := s) (s' := s.inc x) (fun z hz => by simp [St.inc, hz]) hc (by simp [St.inc])
      cases hi : init x with
      | absent =>
        rw [hi] at ha; cases ha
        intro z hz
        have h1 := hb z hz
        have h2 := hu z
        rw [show from1 init x z = 0 by simp [from1, hi]] at h2
        show ((s.inc x).count z : Int) = _ + (users init vars (s.inc x) z : Int)
        rw [h2]; simp only [St.inc]; split <;> omega
      | lit v =>
        rw [hi] at ha; cases ha
        intro z hz
        have h1 := hb z hz
        have h2 := hu z
        rw [show from1 init x z = 0 by simp [from1, hi]] at h2
        show ((s.inc x).count z : Int) = _ + (users init vars (s.inc x) z : Int)
        rw [h2]; simp only [St.inc]; split <;> omega
      | var y =>
        rw [hi] at ha
        simp only at ha
        cases h2 : activate init k (s.inc x) y with
        | none => rw [h2] at ha; cases ha
        | some s2 =>
          rw [h2] at ha; cases ha
          have hy := hv.2 x hx y hi
          have := ih (fun z => (if z = x then h z + 1 else h z) - (if y = z then 1 else 0)) (s.inc x) s2 y hy ?_ h2
          · intro z hz
            have := this z hz
            show (s2.count z : Int) = _ + (users init vars s2 z : Int)
            rw [this]
            by_cases e1 : z = y
            · subst e1; simp
            · have e2 : y ≠ z := fun e => e1 e.symm
              simp [e1, e2]
          · intro z hz
            have h1 := hb z hz
            have h3 := hu z
            rw [from1_var hi] at h3
            rw [h3]
            simp only [St.inc]
            split <;> split <;> omega
    · rw [if_neg hc] at ha; cases ha
      intro z hz
      have h1 := hb z hz
      rw [users_same (s := s) (fun w => by simp only [St.inc]; split <;> (try subst_vars) <;> omega)]
      simp only [St.inc]; split <;> omega

theorem deactivate_balanced (hr : Acyclic init rank) (hv : Vars init vars) (k : Nat) : ∀ (h : Nat → Int) (s : St α) (x : Nat), x ∈ vars → rank x < k → Balanced init vars h s → (∀ z, 0 ≤ h z) → 0 < h x →
    ∃ s', deactivate init k s x = some s' ∧ Balanced init vars (fun z => if z = x then h z - 1 else h z) s' := by
  induction k with
  | zero => intro h s x _ hk; omega
  | succ k ih =>
    intro h s x hx hk hb hh hpos
    have hc : s.count x ≠ 0 := by have := hb x hx; omega
    simp only [deactivate, if_neg hc]
    have hdec : ∀ z, z ≠ x → (s.dec x).count z = s.count z := fun z hz => by simp [St.dec, hz]
    have hdx : (s.dec x).count x = s.count x - 1 := by simp [St.dec]
    by_cases h0 : (s.dec x).count x = 0
    · have hu := users_turn hv hx (s := s.dec x) (s' := s) (fun z hz => (hdec z hz).symm) h0 (by omega)
      rw [if_pos h0]
      have plain : (∀ z, from1 init x z = 0) → Balanced init vars (fun z => if z = x then h z - 1 else h z) (s.dec x) := by
        intro hz0 z hz
        have h1 := hb z hz
        have h2 := hu z
        rw [hz0 z] at h2
        by_cases e : z = x
        · subst e; simp only [if_true]; omega
        · simp only [if_neg e]; rw [hdec z e]; omega
      cases hi : init x with
      | absent => exact ⟨_, rfl, plain (fun z => by simp [from1, hi])⟩
      | lit v => exact ⟨_, rfl, plain (fun z => by simp [from1, hi])⟩
      | var y =>
        have hy := hv.2 x hx y hi
        have hrk := hr x y hi
        have hne : y ≠ x := fun e => by subst e; omega
        have hB : Balanced init vars (fun z => (if z = x then h z - 1 else h z) + (if y = z then 1 else 0)) (s.dec x) := by
          intro z hz
          have h1 := hb z hz
          have h2 := hu z
          rw [from1_var hi] at h2
          by_cases e : z = x
          · subst e
            rw [if_neg hne] at h2
            simp only [if_true, if_neg hne]
            omega
          · simp only [if_neg e]; rw [hdec z e]
            by_cases e2 : y = z
            · rw [if_pos e2] at h2 ⊢; omega
            · rw [if_neg e2] at h2 ⊢; omega
        have hN : ∀ z, 0 ≤ (fun z => (if z = x then h z - 1 else h z) + (if y = z then 1 else 0)) z := by
          intro z
          have := hh z
          by_cases e : z = x
          · subst e; simp only [if_true]; split <;> omega
          · simp only [if_neg e]; split <;> omega
        have hP : 0 < (fun z => (if z = x then h z - 1 else h z) + (if y = z then 1 else 0)) y := by
          have := hh y
          simp only [if_neg hne, if_true]; omega
        obtain ⟨s', g1, g2⟩ := ih _ (s.dec x) y hy (by omega) hB hN hP
        refine ⟨s', g1, ?_⟩
        intro z hz
        rw [g2 z hz]
        by_cases e1 : z = y
        · subst e1; simp
        · have e2 : y ≠ z := fun e => e1 e.symm
          simp [e1, e2]
    · rw [if_neg h0]
      refine ⟨_, rfl, ?_⟩
      intro z hz
      have h1 := hb z hz
      rw [users_same (s := s) (fun w => by
        by_cases e : w = x
        · subst e; omega
        · rw [hdec w e])]
      by_cases e : z = x
      · subst e; simp only [if_true]; omega
      · simp only [if_neg e]; rw [hdec z e]; exact h1

theorem activateAll_balanced (hv : Vars init vars) (k : Nat) (L : List Nat) : ∀ (h : Nat → Int) (s s' : St α), (∀ x ∈ L, x ∈ vars) → Balanced init vars h s → activateAll init k s L = some s' →
    Balanced init vars (fun z => h z + L.count z) s' := by
  induction L with
  | nil => intro h s s' _ hb ha; cases ha; simpa using hb
  | cons x r ih =>
    intro h s s' hl hb ha
    simp only [activateAll] at ha
    cases h1 : activate init k s x with
    | none => rw [h1] at ha; cases ha
    | some s1 =>
      rw [h1] at ha
      have b1 := activate_balanced hv k h s s1 x (hl x List.mem_cons_self) hb h1
      have b2 := ih _ s1 s' (fun y hy => hl y (List.mem_cons_of_mem _ hy)) b1 ha
      intro z hz
      rw [b2 z hz]
      simp only [List.count_cons]
      by_cases e : z = x
      · subst e; simp; omega
      · have : ¬ x = z := fun h => e h.symm
        simp [e, this]

theorem deactivateAll_balanced (hr : Acyclic init rank) (hv : Vars init vars) (k : Nat) (L : List Nat) : ∀ (h : Nat → Int) (s : St α), (∀ x ∈ L, x ∈ vars ∧ rank x < k) → (∀ z, 0 ≤ h z) →
    Balanced init vars (fun z => h z + L.count z) s → ∃ s', deactivateAll init k s L = some s' ∧ Balanced init vars h s' := by
  induction L with
  | nil => intro h s _ _ hb; exact ⟨s, rfl, by simpa using hb⟩
  | cons x r ih =>
    intro h s hl hh hb
    obtain ⟨hx, hk⟩ := hl x List.mem_cons_self
    obtain ⟨s1, g1, b1⟩ := deactivate_balanced hr hv k _ s x hx hk hb (fun z => by have := hh z; omega) (by have := hh x; rw [List.count_cons]; simp; omega)
    obtain ⟨s2, g2, b2⟩ := ih h s1 (fun y hy => hl y (List.mem_cons_of_mem _ hy)) hh (by
      intro z hz
      rw [b1 z hz]
      simp only [List.count_cons]
      by_cases e : z = x
      · subst e; simp; omega
      · have : ¬ x = z := fun h => e h.symm
        simp [e, this])
    exact ⟨s2, by simp only [deactivateAll, g1, Option.bind_some, g2], b2⟩

theorem counts_eq (hr : Acyclic init rank) (hv : Vars init vars) (k : Nat) (hk : ∀ x ∈ vars, rank x < k) {h : Nat → Int} {s t : St α} (hs : Balanced init vars h s) (ht : Balanced init vars h t) :
    ∀ x ∈ vars, s.count x = t.count x := by
  have : ∀ n, ∀ x ∈ vars, k - rank x ≤ n → s.count x = t.count x := by
    intro n
    induction n with
    | zero => intro x hx hn; have := hk x hx; omega
    | succ n ih =>
      intro x hx hn
      have hu : users init vars s x = users init vars t x := by
        unfold users
        apply List.countP_congr
        intro z hz
        cases hi : init z with
        | var y =>
          by_cases e : y = x
          · subst e
            have := hr z y hi
            have := hk z hz
            rw [ih z hz (by omega)]
          · simp [e]
        | _ => simp
      have h1 := hs x hx
      have h2 := ht x hx
      rw [hu] at h1
      omega
  intro x hx
  exact this _ x hx (Nat.le_refl _)

/-- **C156, the counts are right** in every history, and ending never fails. -/
theorem c156_balanced (hr : Acyclic init rank) (hv : Vars init vars) (k : Nat) (hk : ∀ x ∈ vars, rank x < k) {h : Nat → Int} {s : St α} (hh : History init vars k h s) :
    Balanced init vars h s ∧ (∀ z, 0 ≤ h z) ∧ ∀ x ∈ vars, 0 < h x → (deactivate init k s x).isSome := by
  have key : Balanced init vars h s ∧ ∀ z, 0 ≤ h z := by
    induction hh with
    | start v =>
      refine ⟨?_, fun _ => Int.le_refl _⟩
      intro x _
      simp [users]
    | activate x hx _ ha ih => exact ⟨activate_balanced hv k _ _ _ x hx ih.1 ha, fun z => by have := ih.2 z; simp only; split <;> omega⟩
    | deactivate x hx _ hpos ha ih =>
      obtain ⟨s', g1, g2⟩ := deactivate_balanced hr hv k _ _ x hx (hk x hx) ih.1 ih.2 hpos
      rw [ha] at g1; cases g1
      refine ⟨g2, fun z => ?_⟩
      have := ih.2 z
      simp only; split
      · rename_i e; subst e; omega
      · exact this
    | change v _ ih => exact ⟨fun x hx => ih.1 x hx, ih.2⟩
  refine ⟨key.1, key.2, fun x hx hpos => ?_⟩
  obtain ⟨s', g1, -⟩ := deactivate_balanced hr hv k h s x hx (hk x hx) key.1 key.2 hpos
  rw [g1]; rfl

/-- **C156, end.**  At any point of a history a node starts, values change in any way, and it ends: every variable is in use exactly as much as before. -/
theorem c156_end (hr : Acyclic init rank) (hv : Vars init vars) (k : Nat) (hk : ∀ x ∈ vars, rank x < k) {h : Nat → Int} {s s' : St α} (hh : History init vars k h s) (L : List Nat) (hl : ∀ x ∈ L, x ∈ vars)
    (ha : activateAll init k s L = some s') (v : Nat → Option α) :
    ∃ t, deactivateAll init k ⟨s'.count, v⟩ L = some t ∧ ∀ x ∈ vars, t.count x = s.count x := by
  obtain ⟨hb, h0, -⟩ := c156_balanced hr hv k hk hh
  have b1 := activateAll_balanced hv k L h s s' hl hb ha
  obtain ⟨t, g1, g2⟩ := deactivateAll_balanced hr hv k L h ⟨s'.count, v⟩ (fun x hx => ⟨hl x hx, hk x (hl x hx)⟩) h0 (fun x hx => b1 x hx)
  exact ⟨t, g1, counts_eq hr hv k hk g2 hb⟩

/-- **C156, again.**  What a declaration means depends only on which variables are in use and what these read as: after any number of iterations a node starts with the same values as if it started for the first time. -/
theorem c156_again (hv : Vars init vars) {s t : St α} (hc : ∀ x ∈ vars, t.count x = s.count x) (hval : ∀ x ∈ vars, 0 < s.count x → t.read x = s.read x) {x : Nat} (hx : x ∈ vars) {v : Option α}
    (hm : Means init s x v) : Means init t x v := by
  induction hm with
  | inUse x h =>
    have ht : 0 < t.count x := by rw [hc x hx]; exact h
    have := hval x hx h
    simp only [St.read, h, ht, if_true] at this
    rw [← this]; exact Means.inUse x ht
  | absent x h hi => exact Means.absent x (by rw [hc x hx]; exact h) hi
  | lit x v h hi => exact Means.lit x v (by rw [hc x hx]; exact h) hi
  | var x y v h hi _ ih => exact Means.var x y v (by rw [hc x hx]; exact h) hi (ih (hv.2 x hx y hi))

/-- **C156 is false of a variable initialized from itself**, which the parser accepts: its node starts, the variable gets the value 5, the node ends: the variable is still in use, and when its node starts again it
reads as 5; at the first start it was unknown. -/
theorem c156_cycle_refuted : ∃ (init : Nat → Initializer Nat) (s1 s2 s3 : St Nat), init 0 = .var 0 ∧
    activateAll init 9 ⟨fun _ => 0, fun _ => none⟩ [0] = some s1 ∧ s1.read 0 = none ∧
    deactivateAll init 9 (s1.set 0 (some 5)) [0] = some s2 ∧ s2.count 0 = 1 ∧
    activateAll init 9 s2 [0] = some s3 ∧ s3.read 0 = some 5 :=
  ⟨fun _ => .var 0, _, _, _, rfl, rfl, rfl, rfl, rfl, rfl, rfl⟩

/-- Variables 0 (outer, in use, 7), 1 (from 2), 2 (from 0), 3 (literal 4). -/
def exampleInit : Nat → Initializer Nat := fun x => if x = 1 then .var 2 else if x = 2 then .var 0 else if x = 3 then .lit (some 4) else .absent

/-- The outer node has started and 0 is 7; the inner node with 1, 2, 3 starts, though 2 is declared after 1. -/
theorem c156_example : ∃ s', activateAll exampleInit 5 ⟨fun x => if x = 0 then 1 else 0, fun _ => some 7⟩ [1, 2, 3] = some s' ∧ s'.read 1 = some 7 ∧ s'.read 2 = some 7 ∧ s'.read 3 = some 4 ∧ s'.count 0 = 2 :=
  ⟨_, rfl, rfl, rfl, rfl, rfl⟩

/-- The hypotheses of the theorems hold of it. -/
theorem c156_example_hyps : Acyclic exampleInit (fun x => if x = 1 then 2 else if x = 2 then 1 else 0) ∧ Vars exampleInit [0, 1, 2, 3] ∧
    ∃ s, History exampleInit [0, 1, 2, 3] 5 (fun z => if z = 0 then 0 + 1 else 0) s ∧ s.read 0 = some 7 := by
  refine ⟨?_, ⟨by decide, ?_⟩, ?_⟩
  · intro x y h
    unfold exampleInit at h
    by_cases h1 : x = 1
    · subst h1; simp at h; subst h; decide
    · by_cases h2 : x = 2
      · subst h2; simp at h; subst h; decide
      · by_cases h3 : x = 3 <;> simp [h1, h2, h3] at h
  · intro x hx y h
    unfold exampleInit at h
    by_cases h1 : x = 1
    · subst h1; simp at h; subst h; decide
    · by_cases h2 : x = 2
      · subst h2; simp at h; subst h; decide
      · by_cases h3 : x = 3 <;> simp [h1, h2, h3] at h
  · exact ⟨_, .change (fun _ => some 7) (.activate (s := ⟨fun _ => 0, fun _ => none⟩) 0 (by decide) (.start _) rfl), rfl⟩

end Verif.Init
