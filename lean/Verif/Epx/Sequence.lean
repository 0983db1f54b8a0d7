import Verif.Epx.Span
/-
Children linked as in a sequence.
-/
set_option autoImplicit false
set_option linter.unusedSimpArgs false
namespace Verif.Epx
open Verif.Node Verif.Exec Verif.Props.Sync

variable {Val Env : Type} {P : Plan Val Env}

theorem and3_true {a b : Option Bool} (h : and3 a b = some true) : a = some true ∧ b = some true := by
  rcases a with _ | _ | _ <;> rcases b with _ | _ | _ <;> simp [and3] at h ⊢

theorem nodeFinished_iff {n : NodeId} {o : Obs Val Env} : nodeFinished n o = some true ↔ o.st n = .finished := by simp [nodeFinished]

theorem linkChildren_mem (prev : Option NodeId) (l1 : Block Val Env) (b : NodeId × NodeDef Val Env) (l2 : Block Val Env) :
    (b.1, linkage ((l1.getLast?.map Prod.fst).or prev) b.2) ∈ linkChildren prev (l1 ++ b :: l2) := by
  induction l1 generalizing prev with
  | nil => simp [linkChildren]
  | cons x l ih =>
    simp only [List.cons_append, linkChildren, List.mem_cons]
    right
    have := ih (some x.1)
    cases hl : l.getLast? with
    | none => rw [hl] at this; have hn : l = [] := by simpa using hl
              subst hn; simpa using this
    | some y => rw [hl] at this; simp [List.getLast?_cons, hl] at this ⊢; exact this

/-- The children of `p` are linked as in a sequence. -/
structure Linked (P : Plan Val Env) (p : NodeId) (kids : Block Val Env) : Prop where
  child : ∀ k ∈ kids, k.1 ∈ (P.node p).children
  link : ∀ x ∈ linkChildren none kids, P.node x.1 = x.2

theorem Linked.starts {p : NodeId} {kids : Block Val Env} (h : Linked P p kids) {l1 a b l2} (hk : kids = l1 ++ a :: b :: l2) {o : Obs Val Env}
    (hs : ∀ f, (P.node b.1).start = some f → f o = some true) : o.st a.1 = .finished := by
  have := h.link _ (by rw [hk, show l1 ++ a :: b :: l2 = (l1 ++ [a]) ++ b :: l2 by simp]; exact linkChildren_mem none (l1 ++ [a]) b l2)
  simp at this
  simp only [this, linkage, orderedStart] at hs
  cases hd : b.2.start with
  | none => rw [hd] at hs; exact nodeFinished_iff.1 (hs _ rfl)
  | some f => rw [hd] at hs; exact nodeFinished_iff.1 (and3_true (hs _ rfl)).1

theorem Linked.skips {p : NodeId} {kids : Block Val Env} (h : Linked P p kids) {l1 a b l2} (hk : kids = l1 ++ a :: b :: l2) {o : Obs Val Env}
    (hs : Says (P.node b.1).skip o (some true)) : o.st a.1 = .finished := by
  have := h.link _ (by rw [hk, show l1 ++ a :: b :: l2 = (l1 ++ [a]) ++ b :: l2 by simp]; exact linkChildren_mem none (l1 ++ [a]) b l2)
  simp at this
  obtain ⟨f, e1, e2⟩ := hs
  simp only [this, linkage, orderedSkip] at e1
  cases hd : b.2.skip with
  | none => rw [hd] at e1; cases e1
  | some g => rw [hd] at e1; cases e1; exact nodeFinished_iff.1 (and3_true e2).1

/-- No child's ExitCondition is true. -/
def NoExit (P : Plan Val Env) (kids : Block Val Env) (o : Obs Val Env) : Prop := ∀ k ∈ kids, ¬ Says (P.node k.1).exit o (some true)

/-- The invariant: a child that has begun has all before it FINISHED, unless it and all after it have been stopped. -/
def InOrder (kids : Block Val Env) (t : Picture) (B : NodeId → Prop) : Prop :=
  ∀ l1 b l2, kids = l1 ++ b :: l2 →
    (((t b.1).1 = .inactive ∨ (t b.1).1 = .waiting) ∧ ¬ B b.1) ∨ (∀ a ∈ l1, (t a.1).1 = .finished) ∨ ∀ c ∈ b :: l2, (t c.1).1 = .finished

theorem Since.inOrder (hA : PlanTree P) {p : NodeId} {kids : Block Val Env} (hl : Linked P p kids) {U : Obs Val Env → Prop}
    (hx : ∀ o, U o → NoExit P kids o)
    {L : List (Event Val Env)} {t : Picture} {B} (h : Since P p U (Fresh P p (kids.map Prod.fst)) L t B) : InOrder kids t B := by
  have hkids : ∀ k ∈ kids.map Prod.fst, k ∈ (P.node p).children := by
    intro k hk; obtain ⟨x, hx1, rfl⟩ := List.mem_map.1 hk; exact hl.child x hx1
  induction h with
  | base h =>
    intro l1 b l2 e
    have := (h.start hA hkids).2 b.1 (List.mem_map.2 ⟨b, by rw [e]; simp, rfl⟩)
    exact .inl ⟨.inl this.1, this.2⟩
  | @step L o B t B' ms hprev hs h1 h2 hm ih =>
    have hbeg := Since.begun hA hkids hprev
    have hblk : ∀ {c}, B c → o.st c = .waiting := fun hb => Since.blocked hprev hb
    have hanc : ∀ k ∈ kids, (P.node k.1).anc = p :: (P.node p).anc := fun k hk => hA.child p k.1 (hl.child k hk)
    have hfin : ∀ k ∈ kids, o.st k.1 = .finished → (t k.1).1 = .finished := by
      intro k hk e; rw [step_finished hs (hanc k hk) e hbeg.1]; exact e
    intro l1 b l2 e
    have hb : b ∈ kids := by rw [e]; simp
    have hbef : ∀ a ∈ l1, a ∈ kids := fun a ha => by rw [e]; simp [ha]
    have haft : ∀ c ∈ l2, c ∈ kids := fun a ha => by rw [e]; simp [ha]
    -- if the one before is FINISHED and this one is not, all before are
    have hall : (o.st b.1 = .waiting) → (∀ l1' a, l1 = l1' ++ [a] → o.st a.1 = .finished) → ∀ a ∈ l1, o.st a.1 = .finished := by
      intro hw hp
      rcases List.eq_nil_or_concat l1 with rfl | ⟨l1', a, rfl⟩
      · intro a ha; cases ha
      · have hp := hp l1' a (by simp)
        rcases ih l1' a (b :: l2) (by rw [e]; simp) with ⟨i1, _⟩ | i | i
        · exact absurd i1 (by show ¬ (o.st a.1 = _ ∨ o.st a.1 = _); rw [hp]; simp)
        · intro x hx
          rcases List.mem_append.1 (by simpa using hx : x ∈ l1' ++ [a]) with hx | hx
          · exact i x hx
          · have : x = a := by simpa using hx
            rw [this]; exact hp
        · have : o.st b.1 = .finished := i b (by simp)
          rw [hw] at this; cases this
    have hstart : o.st b.1 = .waiting → (∀ f, (P.node b.1).start = some f → f o = some true) → ∀ a ∈ l1, (t a.1).1 = .finished := by
      intro hw hst a ha
      refine hfin a (hbef a ha) (hall hw ?_ a ha)
      intro l1' a' e'
      exact hl.starts (l1 := l1') (a := a') (b := b) (l2 := l2) (by rw [e, e']; simp) hst
    rcases ih l1 b l2 e with ⟨i1, i2⟩ | i | i
    · -- not begun
      have hNB : (t b.1).1 ≠ o.st b.1 → U o := by
        intro hne; exact h2 (fun e => by have := (hm b.1).2 hne; rw [e] at this; cases this)
      rcases i1 with i1 | i1
      · -- INACTIVE
        have hB' : ¬ B' b.1 := fun hb' => by have := (hs.2 _ hb').2.1; rw [show o.st b.1 = .inactive from i1] at this; cases this
        rcases hbeg.2 with ⟨j1, j2⟩ | j
        · rcases step_inactive hs (hanc b hb) i1 with ⟨x, _⟩ | ⟨_, y, x, _⟩ | ⟨_, _, x⟩ | ⟨x, _⟩
          · rw [show o.st p = .executing from j1] at x; cases x
          · right; right
            intro c hc
            have hck : c ∈ kids := by rw [e]; rcases List.mem_cons.1 hc with rfl | hc <;> simp [*]
            rcases step_inactive hs (hanc c hck) (j2 c.1 (List.mem_map.2 ⟨c, hck, rfl⟩)).1 with ⟨_, x, _⟩ | ⟨_, _, x, _⟩ | ⟨_, z, _⟩ | ⟨z, _⟩
            · exact x
            · exact x
            · exact absurd ((told_sibling (by rw [hanc b hb, hanc c hck])).1 y) z
            · exact absurd j1 z
          · exact .inl ⟨.inr x, hB'⟩
          · exact absurd j1 x
        · exact absurd i1 (j b.1 (List.mem_map.2 ⟨b, hb, rfl⟩))
      · -- WAITING
        have hnoin : ∀ c ∈ kids, o.st c.1 ≠ .inactive := by
          rcases hbeg.2 with ⟨_, j2⟩ | j
          · have := (j2 b.1 (List.mem_map.2 ⟨b, hb, rfl⟩)).1; rw [i1] at this; cases this
          · intro c hc; exact j c.1 (List.mem_map.2 ⟨c, hc, rfl⟩)
        rcases step_waiting hs (hanc b hb) i1 with ⟨x1, x2, _⟩ | ⟨x1, x2, x3, x4⟩ | ⟨x1, x2, x3, x4⟩ | ⟨x1, x2, x3⟩
        · left; refine ⟨.inr ?_, x2⟩; rw [x1]; exact i1
        · rcases x4 with x4 | x4
          · right; left; exact hstart i1 x4.2.2.2
          · exact absurd x4 i2
        · rcases x4 with x4 | x4 | x4
          · -- told to stop: so are all after it
            right; right
            intro c hc
            rcases List.mem_cons.1 hc with rfl | hc
            · exact x1
            · have hck := haft c hc
              obtain ⟨m1, m2, rfl⟩ := List.append_of_mem hc
              have hnotfin : ¬ ∀ a ∈ l1 ++ b :: m1, o.st a.1 = .finished := fun hh => by
                have := hh b (by simp); rw [show o.st b.1 = .waiting from i1] at this; cases this
              rcases ih (l1 ++ b :: m1) c m2 (by rw [e]; simp) with ⟨k1, k2⟩ | k | k
              · have hcw : o.st c.1 = .waiting := k1.resolve_left (hnoin c hck)
                have htc : ToldToStop P o c.1 := (told_sibling (by rw [hanc b hb, hanc c hck])).1 x4
                rcases step_waiting hs (hanc c hck) hcw with ⟨_, _, z, _⟩ | ⟨_, _, _, z⟩ | ⟨z, _⟩ | ⟨_, _, z⟩
                · exact absurd htc z
                · rcases z with z | z
                  · exact absurd htc z.1
                  · exact absurd z k2
                · exact z
                · exact absurd htc z.1
              · exact absurd k hnotfin
              · exact hfin c hck (k c (by simp))
          · exact absurd x4 (hx o (hNB (by rw [x1, show o.st b.1 = .waiting from i1]; simp)) b hb)
          · right; left
            intro a ha
            refine hfin a (hbef a ha) (hall i1 ?_ a ha)
            intro l1' a' e'
            exact hl.skips (l1 := l1') (a := a') (b := b) (l2 := l2) (by rw [e, e']; simp) x4
        · right; left; exact hstart i1 x3.2.2.2
    · right; left; exact fun a ha => hfin a (hbef a ha) (i a ha)
    · right; right
      intro c hc
      exact hfin c (by rw [e]; rcases List.mem_cons.1 hc with rfl | hc <;> simp [*]) (i c hc)

end Verif.Epx
