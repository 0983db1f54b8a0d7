import Verif.Epx.Spec
import Verif.Epx.Lemmas
/-
The children of a list since it started.
-/
set_option autoImplicit false
set_option linter.unusedSimpArgs false
namespace Verif.Epx
open Verif.Node Verif.Exec Verif.Props.Sync

variable {Val Env : Type} {P : Plan Val Env}

/-- Since `p` started with no child going on. -/
def Fresh (P : Plan Val Env) (p : NodeId) (kids : List NodeId) (t : Picture) (B : NodeId → Prop) : Prop :=
  ∃ o1, Starts P p .waiting .executing o1 t B ∧ ∀ k ∈ kids, o1.st k = .inactive ∨ o1.st k = .finished

theorem Since.mono {p : NodeId} {U U' : Obs Val Env → Prop} {S S' : Picture → (NodeId → Prop) → Prop} (hU : ∀ o, U o → U' o) (hS : ∀ t B, S t B → S' t B)
    {L : List (Event Val Env)} {t : Picture} {B} (h : Since P p U S L t B) : Since P p U' S' L t B := by
  induction h with
  | base h => exact .base (hS _ _ h)
  | step ms _ hs h1 h2 h3 ih => exact .step ms ih hs h1 (fun h => hU _ (h2 h)) h3

/-- What a child is right after its parent's start. -/
theorem Fresh.start (hA : PlanTree P) {p : NodeId} {kids : List NodeId} (hk : ∀ k ∈ kids, k ∈ (P.node p).children) {t : Picture} {B}
    (h : Fresh P p kids t B) : (t p).1 = .executing ∧ ∀ k ∈ kids, (t k).1 = .inactive ∧ ¬ B k := by
  obtain ⟨o1, ⟨L, B0, hr, hs, h1, h2⟩, h3⟩ := h
  refine ⟨h2.symm, fun k hkk => ?_⟩
  have ha := hA.child p k (hk k hkk)
  have hb : ¬ B k := by
    intro hb
    have := (hs.2 k hb).2.1
    rcases h3 k hkk with e | e <;> rw [this] at e <;> cases e
  refine ⟨?_, hb⟩
  rcases h3 k hkk with e | e
  · rcases step_inactive hs ha e with ⟨g, _⟩ | ⟨g, _⟩ | ⟨g, _⟩ | ⟨_, _, g⟩
    · rw [← h1] at g; cases g
    · rw [← h1] at g; cases g
    · rw [← h1] at g; cases g
    · rw [g]; exact e
  · rw [step_reset hs ha e h1.symm]

/-- Children become WAITING together. -/
theorem Since.begun (hA : PlanTree P) {p : NodeId} {kids : List NodeId} (hk : ∀ k ∈ kids, k ∈ (P.node p).children) {U : Obs Val Env → Prop}
    {L : List (Event Val Env)} {t : Picture} {B} (h : Since P p U (Fresh P p kids) L t B) :
    (t p).1 ≠ .waiting ∧ (((t p).1 = .executing ∧ ∀ k ∈ kids, (t k).1 = .inactive ∧ ¬ B k) ∨ ∀ k ∈ kids, (t k).1 ≠ .inactive) := by
  induction h with
  | base h => have := h.start hA hk; exact ⟨by rw [this.1]; simp, .inl this⟩
  | @step L o B t B' ms _ hs h1 _ _ ih =>
    refine ⟨h1 ih.1, .inr fun k hkk e => ?_⟩
    have ha := hA.child p k (hk k hkk)
    rcases step_to_inactive hs ha e with g | ⟨_, g⟩
    · rcases ih.2 with ⟨i1, _⟩ | i2
      · rcases step_inactive hs ha g with ⟨_, x, _⟩ | ⟨_, _, x, _⟩ | ⟨_, _, x⟩ | ⟨x, _⟩
        · rw [x] at e; cases e
        · rw [x] at e; cases e
        · rw [x] at e; cases e
        · exact x i1
      · exact i2 k hkk g
    · exact ih.1 g

/-- A node waiting for a mutex or a variable is WAITING. -/
theorem Since.blocked {p : NodeId} {kids : List NodeId} {U : Obs Val Env → Prop} {L : List (Event Val Env)} {t : Picture} {B}
    (h : Since P p U (Fresh P p kids) L t B) {c : NodeId} (hb : B c) : (t c).1 = .waiting := by
  cases h with
  | base h => obtain ⟨o1, ⟨L, B0, hr, hs, h1, h2⟩, h3⟩ := h; obtain ⟨e1, e2, _⟩ := hs.2 c hb; rw [e1]; exact e2
  | step ms _ hs _ _ _ => obtain ⟨e1, e2, _⟩ := hs.2 c hb; rw [e1]; exact e2

/-- States and outcomes fit. -/
theorem Since.fits {p : NodeId} {kids : List NodeId} {U : Obs Val Env → Prop} {L : List (Event Val Env)} {t : Picture} {B}
    (h : Since P p U (Fresh P p kids) L t B) (k : NodeId) : StateExists (P.node k).type (t k).1 ∧ Consistent (t k).1 (t k).2.1 (t k).2.2 := by
  have step : ∀ {o : Obs Val Env} {B t B'}, SyncStep P o B t B' → (StateExists (P.node k).type (picture o k).1 ∧
      Consistent (picture o k).1 (picture o k).2.1 (picture o k).2.2) → StateExists (P.node k).type (t k).1 ∧ Consistent (t k).1 (t k).2.1 (t k).2.2 := by
    intro o B t B' hs ih
    rcases hs.cases k with ⟨g, _⟩ | ⟨d, hd, h1, h2⟩
    · rw [g]; exact ih
    · have h3 := consistent_step hd ih.1 ih.2
      refine ⟨?_, ?_⟩
      · rw [← h1]; exact (Verif.Props.Node.C01_destination_in_diagram _ _ _ _ _ d ih.1 hd).2
      · rw [h2]; unfold synchronousNext; rw [hd]; exact h3
  induction h with
  | base hS => obtain ⟨o1, ⟨L, B, h1, h2, _⟩, _⟩ := hS; exact step h2 (h1.ok k)
  | step ms _ hs _ _ _ ih => exact step hs ih

/-- From a history to a synchronous execution: the situation of a transition in an execution of `p`. -/
theorem _root_.Verif.Exec.ReachN.during (hN : Notifies P) (hA : PlanTree P) {ph : Phase} {s : St Val Env} (h : ReachN P ph s) {p : NodeId}
    {kids : List NodeId} {U : Obs Val Env → Prop} {L1 m a b o} (he : During p kids s.log L1 m a b o) (hU : ∀ n a b o, .trans n a b o ∈ L1 → U o) :
    ∃ t B B', SyncStep P o B t B' ∧ a = o.st m ∧ b = (t m).1 ∧ a ≠ b ∧
      ((o.st p = .waiting ∧ (∀ k ∈ kids, o.st k = .inactive ∨ o.st k = .finished) ∧ Fresh P p kids t B') ∨
       ∃ L', Since P p U (Fresh P p kids) L' (picture o) B ∧ (∀ e ∈ L', e ∈ L1) ∧
         ∀ k c d o', .trans k c d o' ∈ L1 → k ∈ kids → c ≠ .inactive → c ≠ .finished →
           .trans k c d o' ∈ L' ∨ (o' = o ∧ c = o.st k ∧ d = (t k).1)) := by
  obtain ⟨L0, o1, L2, h1, h2, h3⟩ := he
  obtain ⟨L, t, B, B', g1, g2, g3, g4, g5, g6⟩ := h.since hN hA.tree h1 h3 hU
  refine ⟨t, B, B', g2, g3, g4, g5, ?_⟩
  rcases g6 with ⟨rfl, e1, e2, _⟩ | ⟨L', e, e', e''⟩
  · left; exact ⟨e1.symm, h2, o, ⟨L, B, g1, g2, e1, e2⟩, h2⟩
  · right
    refine ⟨L', Since.mono (fun _ h => h) (fun t B h => ⟨o1, h, h2⟩) e, e'', fun k c d o' hx hk hc1 hc2 => ?_⟩
    rcases e' k c d o' hx with rfl | g | g
    · obtain ⟨_, _, _, _, _, _, x, _⟩ := h.event hN hA.tree (n := k) (a := c) (b := d) (o := o') (by rw [h1]; simp [hx])
      rcases h2 k hk with y | y
      · exact absurd (x.trans y) hc1
      · exact absurd (x.trans y) hc2
    · exact .inl g
    · exact .inr g

/-- The same for the present situation. -/
theorem _root_.Verif.Exec.ReachN.sinceNow (hN : Notifies P) (hA : PlanTree P) {ph : Phase} {s : St Val Env} (h : ReachN P ph s) (hp : ph ≠ .trans)
    {p : NodeId} {kids : List NodeId} {U : Obs Val Env → Prop} {L1} (he : Ongoing p kids s.log L1) (hU : ∀ n a b o, .trans n a b o ∈ L1 → U o) :
    ∃ L' B, Since P p U (Fresh P p kids) L' (picture s.obs) B ∧ (∀ e ∈ L', e ∈ L1) ∧
      ∀ k c d o', .trans k c d o' ∈ L1 → k ∈ kids → c ≠ .inactive → c ≠ .finished → .trans k c d o' ∈ L' := by
  obtain ⟨L0, o1, h1, h2, h3⟩ := he
  obtain ⟨B, hB, _⟩ := (h.synced hN hA.tree).1 hp
  have hlog : transitions s.log = transitions L0 ++ .trans p .waiting .executing o1 :: transitions L1 := by rw [h1, transitions_append]; rfl
  obtain ⟨L', i1, i2, i3⟩ := hB.since hlog (p := p) (U := U) (fun a o' hx => h3 a o' (mem_transitions.1 hx))
    fun n a b o' hx => hU n a b o' (mem_transitions.1 hx)
  refine ⟨L', B, Since.mono (fun _ h => h) (fun t B h => ⟨o1, h, h2⟩) i1, fun e he => mem_transitions' (i3 e he), fun k c d o' hx hk hc1 hc2 => ?_⟩
  rcases i2 k c d o' (mem_transitions.2 hx) with rfl | g
  · obtain ⟨_, _, _, _, _, _, x, _⟩ := h.event hN hA.tree (n := k) (a := c) (b := d) (o := o') (by rw [h1]; simp [hx])
    rcases h2 k hk with y | y
    · exact absurd (x.trans y) hc1
    · exact absurd (x.trans y) hc2
  · exact g

end Verif.Epx
