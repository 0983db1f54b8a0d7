import Verif.Epx.Sequence
/-
The children of an If.
-/
set_option autoImplicit false
set_option linter.unusedSimpArgs false
namespace Verif.Epx
open Verif.Node Verif.Exec Verif.Props.Sync

variable {Val Env : Type} {P : Plan Val Env}

theorem Started.mono {n : NodeId} {L L' : List (Event Val Env)} (h : Started n L) (hs : ∀ e ∈ L, e ∈ L') : Started n L' := by
  obtain ⟨y, o, h1, h2⟩ := h; exact ⟨y, o, hs _ h1, h2⟩

theorem started_append {n : NodeId} {L : List (Event Val Env)} {o : Obs Val Env} {t : Picture} {ms : List NodeId} (h : Started n (L ++ report o t ms)) :
    Started n L ∨ (o.st n = .waiting ∧ ((t n).1 = .executing ∨ (t n).1 = .iterationEnded)) := by
  obtain ⟨y, o', h1, h2⟩ := h
  rcases List.mem_append.1 h1 with h1 | h1
  · exact .inl ⟨y, o', h1, h2⟩
  · obtain ⟨_, e1, e2, _⟩ := mem_report.1 h1
    exact .inr ⟨e1.symm, by rw [← e2]; exact h2⟩

theorem started_report {n : NodeId} {L : List (Event Val Env)} {o : Obs Val Env} {t : Picture} {ms : List NodeId} (hm : n ∈ ms ↔ (t n).1 ≠ o.st n)
    (h1 : o.st n = .waiting) (h2 : (t n).1 = .executing ∨ (t n).1 = .iterationEnded) : Started n (L ++ report o t ms) := by
  refine ⟨(t n).1, o, List.mem_append.2 (.inr (mem_report.2 ⟨hm.2 ?_, h1.symm, rfl, rfl⟩)), h2⟩
  rw [h1]; rcases h2 with e | e <;> rw [e] <;> simp

/-- Started in this step or before: a node that is active has started. -/
theorem step_active {o : Obs Val Env} {B B' : NodeId → Prop} {t : Picture} (hs : SyncStep P o B t B') {c p : NodeId} {l} (hc : (P.node c).anc = p :: l)
    (h : Active (t c).1) : Active (o.st c) ∨ (o.st c = .waiting ∧ ((t c).1 = .executing ∨ (t c).1 = .iterationEnded)) := by
  cases hst : o.st c with
  | inactive =>
    rcases step_inactive hs hc hst with ⟨_, x, _⟩ | ⟨_, _, x, _⟩ | ⟨_, _, x⟩ | ⟨_, _, x⟩
    · exact absurd x h.2.2
    · exact absurd x h.2.2
    · exact absurd x h.2.1
    · rw [x] at h; exact absurd hst h.1
  | waiting =>
    rcases step_waiting hs hc hst with ⟨x, _⟩ | ⟨x, _⟩ | ⟨x, _⟩ | ⟨x, _⟩
    · rw [x] at h; exact absurd hst h.2.1
    · rw [x] at h; exact absurd hst h.2.1
    · exact absurd x h.2.2
    · exact .inr ⟨rfl, x⟩
  | finished =>
    by_cases hp : o.st p = .waiting
    · rw [step_reset hs hc hst hp] at h; exact absurd rfl h.1
    · rw [step_finished hs hc hst hp] at h; exact absurd hst h.2.2
  | _ => left; simp [Active]

/-- A Start or Skip condition that forbids two nodes to start in the same situation, and makes one be skipped when the other may start. -/
structure Exclusive (P : Plan Val Env) (x y : NodeId) : Prop where
  /-- If `x` may start, `y` is to be skipped. -/
  skip : ∀ o, MayStart P o x → Says (P.node y).skip o (some true)

/-- The invariant: if one of the two has started or waits for a mutex or a variable, the other is FINISHED and has not started. -/
def OneOf (x y : NodeId) (L : List (Event Val Env)) (t : Picture) (B : NodeId → Prop) : Prop :=
  (Active (t x).1 → Started x L) ∧ ((Started x L ∨ B x) → (t y).1 = .finished ∧ ¬ Started y L)

theorem OneOf.step (hA : PlanTree P) {p x y : NodeId} (hx : x ∈ (P.node p).children) (hy : y ∈ (P.node p).children) (hxy : Exclusive P x y)
    {L : List (Event Val Env)} {o : Obs Val Env} {t : Picture} {B B'} {ms : List NodeId} (hs : SyncStep P o B t B') (hm : ∀ n, n ∈ ms ↔ (t n).1 ≠ o.st n)
    (hp : o.st p ≠ .waiting) (hin : o.st x = .waiting → o.st y ≠ .inactive) (h1 : OneOf x y L (picture o) B) (h2 : OneOf y x L (picture o) B) :
    OneOf x y (L ++ report o t ms) t B' := by
  have hax := hA.child p x hx
  have hay := hA.child p y hy
  have hmono : ∀ n, Started n L → Started n (L ++ report o t ms) := fun n h => h.mono fun e he => List.mem_append.2 (.inl he)
  -- if `y` is FINISHED and has not started, both remain so
  have keep : o.st y = .finished ∧ ¬ Started y L → (t y).1 = .finished ∧ ¬ Started y (L ++ report o t ms) := by
    rintro ⟨g1, g2⟩
    refine ⟨by rw [step_finished hs hay g1 hp]; exact g1, fun h => ?_⟩
    rcases started_append h with h | ⟨h, _⟩
    · exact g2 h
    · rw [g1] at h; cases h
  have new : o.st x = .waiting → MayStart P o x → ¬ B y → (t y).1 = .finished ∧ ¬ Started y (L ++ report o t ms) := by
    intro hw hmay hb
    have hsk := hxy.skip o hmay
    have hny : ¬ Started y L := by
      intro h
      have := (h2.2 (.inl h)).1
      rw [show (picture o x).1 = o.st x from rfl, hw] at this; cases this
    have hfin : (t y).1 = .finished := by
      cases hst : o.st y with
      | inactive => exact absurd hst (hin hw)
      | waiting =>
        rcases step_waiting hs hay hst with ⟨_, _, _, _, g, _⟩ | ⟨_, _, _, g⟩ | ⟨g, _⟩ | ⟨_, _, g⟩
        · exact absurd hsk g
        · rcases g with g | g
          · exact absurd hsk g.2.2.1
          · exact absurd g hb
        · exact g
        · exact absurd hsk g.2.2.1
      | finished => rw [step_finished hs hay hst hp]; exact hst
      | _ => exact absurd (h2.1 (by rw [show (picture o y).1 = o.st y from rfl, hst]; simp [Active])) hny
    refine ⟨hfin, fun h => ?_⟩
    rcases started_append h with h | ⟨_, h⟩
    · exact hny h
    · rw [hfin] at h; rcases h with h | h <;> cases h
  refine ⟨fun ha => ?_, fun h => ?_⟩
  · rcases step_active hs hax ha with g | ⟨g1, g2⟩
    · exact hmono x (h1.1 g)
    · exact started_report (hm x) g1 g2
  · have hnb : o.st x = .waiting → ¬ B y := by
      intro hw hb
      have := (h2.2 (.inr hb)).1
      rw [show (picture o x).1 = o.st x from rfl, hw] at this; cases this
    rcases h with h | h
    · rcases started_append h with h | ⟨h, h'⟩
      · exact keep (h1.2 (.inl h))
      · rcases step_waiting hs hax h with ⟨g, _⟩ | ⟨g, _⟩ | ⟨g, _⟩ | ⟨_, _, g⟩
        · rw [g, show (picture o x).1 = o.st x from rfl, h] at h'; rcases h' with h' | h' <;> cases h'
        · rw [g, show (picture o x).1 = o.st x from rfl, h] at h'; rcases h' with h' | h' <;> cases h'
        · rw [g] at h'; rcases h' with h' | h' <;> cases h'
        · exact new h g (hnb h)
    · have hw := (hs.2 x h).2.1
      rcases step_waiting hs hax hw with ⟨_, g, _⟩ | ⟨_, _, _, g⟩ | ⟨_, _, g, _⟩ | ⟨_, g, _⟩
      · exact absurd h g
      · rcases g with g | g
        · exact new hw g (hnb hw)
        · exact keep (h1.2 (.inr g))
      · exact absurd h g
      · exact absurd h g

theorem Since.oneOf (hA : PlanTree P) {p x y : NodeId} (hx : x ∈ (P.node p).children) (hy : y ∈ (P.node p).children) (hxy : Exclusive P x y)
    (hyx : Exclusive P y x) {kids : List NodeId} (hk : ∀ k ∈ kids, k ∈ (P.node p).children) (hxk : x ∈ kids) (hyk : y ∈ kids) {U : Obs Val Env → Prop}
    {L : List (Event Val Env)} {t : Picture} {B} (h : Since P p U (Fresh P p kids) L t B) : OneOf x y L t B ∧ OneOf y x L t B := by
  induction h with
  | base h =>
    have := (h.start hA hk).2
    have key : ∀ z ∈ kids, ∀ w, OneOf z w ([] : List (Event Val Env)) _ _ := fun z hz w =>
      ⟨fun ha => absurd (this z hz).1 ha.1, fun hh => hh.elim (fun ⟨_, _, hh, _⟩ => by cases hh) (fun hh => absurd hh (this z hz).2)⟩
    exact ⟨key x hxk y, key y hyk x⟩
  | @step L o B t B' ms hprev hs h1 h2 hm ih =>
    have hbeg := Since.begun hA hk hprev
    have hin : ∀ z ∈ kids, ∀ w ∈ kids, o.st z = .waiting → o.st w ≠ .inactive := by
      intro z hz w hw hzw
      rcases hbeg.2 with ⟨_, g⟩ | g
      · have := (g z hz).1; rw [show (picture o z).1 = o.st z from rfl, hzw] at this; cases this
      · exact g w hw
    exact ⟨OneOf.step hA hx hy hxy hs hm hbeg.1 (hin x hxk y hyk) ih.1 ih.2, OneOf.step hA hy hx hyx hs hm hbeg.1 (hin y hyk x hxk) ih.2 ih.1⟩

/-- Two nodes with opposite conditions and nothing else that keeps them from starting. -/
structure Opposite (P : Plan Val Env) (cond : Obs Val Env → Option Bool) (x y : NodeId) : Prop where
  startX : (P.node x).start = some cond
  startY : (P.node y).start = some fun o => not3 (cond o)
  skipX : (P.node x).skip = some fun o => not3 (cond o)
  skipY : (P.node y).skip = some cond
  exitX : (P.node x).exit = none
  exitY : (P.node y).exit = none
  resX : acquiresResources P x = false
  resY : acquiresResources P y = false

/-- Exactly one of two such nodes starts, as long as they are not told to stop. -/
theorem Since.branch (hA : PlanTree P) {p x y : NodeId} {cond : Obs Val Env → Option Bool} (hx : x ∈ (P.node p).children) (hy : y ∈ (P.node p).children)
    (hO : Opposite P cond x y) {kids : List NodeId} (hk : ∀ k ∈ kids, k ∈ (P.node p).children) (hxk : x ∈ kids) (hyk : y ∈ kids)
    {L : List (Event Val Env)} {t : Picture} {B} (h : Since P p (fun o => ¬ ToldToStop P o x) (Fresh P p kids) L t B) :
    ((t x).1 = .inactive ∧ (t y).1 = .inactive) ∨ ((t x).1 = .waiting ∧ (t y).1 = .waiting) ∨
      (Started x L ∧ (t y).1 = .finished) ∨ (Started y L ∧ (t x).1 = .finished) := by
  have hax := hA.child p x hx
  have hay := hA.child p y hy
  induction h with
  | base h => have := (h.start hA hk).2; exact .inl ⟨(this x hxk).1, (this y hyk).1⟩
  | @step L o B t B' ms hprev hs h1 h2 hm ih =>
    have hbeg := Since.begun hA hk hprev
    have hpw : o.st p ≠ .waiting := hbeg.1
    have told : ∀ z, (P.node z).anc = p :: (P.node p).anc → (t z).1 ≠ o.st z → ¬ ToldToStop P o z := by
      intro z hz hne
      have : ms ≠ [] := fun e => by have := (hm z).2 hne; rw [e] at this; cases this
      rw [told_sibling (c' := x) (by rw [hz, hax])]
      exact h2 this
    have hmono : ∀ n, Started n L → Started n (L ++ report o t ms) := fun n h => h.mono fun e he => List.mem_append.2 (.inl he)
    -- a child leaves INACTIVE for WAITING
    have wake : ∀ z, (P.node z).anc = p :: (P.node p).anc → o.st p = .executing → o.st z = .inactive → (t z).1 = .waiting := by
      intro z hz hp hi
      rcases step_inactive hs hz hi with ⟨g, _⟩ | ⟨_, g, g', _⟩ | ⟨_, _, g⟩ | ⟨g, _⟩
      · rw [hp] at g; cases g
      · exact absurd g (told z hz (by rw [g', hi]; simp))
      · exact g
      · exact absurd hp g
    rcases ih with ⟨i1, i2⟩ | ⟨i1, i2⟩ | ⟨i1, i2⟩ | ⟨i1, i2⟩
    · have hp : o.st p = .executing := by
        rcases hbeg.2 with g | g
        · exact g.1
        · exact absurd i1 (g x hxk)
      exact .inr (.inl ⟨wake x hax hp i1, wake y hay hp i2⟩)
    · replace i1 : o.st x = .waiting := i1
      replace i2 : o.st y = .waiting := i2
      have sx := step_waiting hs hax i1
      have sy := step_waiting hs hay i2
      rw [hO.startX, hO.skipX, hO.exitX, hO.resX] at sx
      rw [hO.startY, hO.skipY, hO.exitY, hO.resY] at sy
      have px : (picture o x).1 = .waiting := i1
      have py : (picture o y).1 = .waiting := i2
      rcases hc : cond o with _ | _ | _
      · right; left
        refine ⟨?_, ?_⟩
        · rcases sx with ⟨g, _⟩ | ⟨g, _⟩ | ⟨g, _, _, g' | g' | g'⟩ | ⟨_, _, g⟩
          · rw [g]; exact i1
          · rw [g]; exact i1
          · exact absurd g' (told x hax (by rw [g, i1]; simp))
          · simp [Says] at g'
          · simp [Says, hc, not3] at g'
          · have := g.2.2.2 cond hO.startX; rw [hc] at this; cases this
        · rcases sy with ⟨g, _⟩ | ⟨g, _⟩ | ⟨g, _, _, g' | g' | g'⟩ | ⟨_, _, g⟩
          · rw [g]; exact i2
          · rw [g]; exact i2
          · exact absurd g' (told y hay (by rw [g, i2]; simp))
          · simp [Says] at g'
          · simp [Says, hc, not3] at g'
          · have := g.2.2.2 _ hO.startY; simp [hc, not3] at this
      · right; right; right
        refine ⟨started_report (hm y) i2 ?_, ?_⟩
        · rcases sy with ⟨_, _, _, _, _, f, g, g'⟩ | ⟨_, _, g, _⟩ | ⟨g, _, _, g' | g' | g'⟩ | ⟨g, _⟩
          · simp at g; subst g; simp [hc, not3] at g'
          · cases g
          · exact absurd g' (told y hay (by rw [g, i2]; simp))
          · simp [Says] at g'
          · simp [Says, hc, not3] at g'
          · exact g
        · rcases sx with ⟨_, _, _, _, g, _⟩ | ⟨_, _, g, _⟩ | ⟨g, _⟩ | ⟨_, _, g⟩
          · simp [Says, hc, not3] at g
          · cases g
          · exact g
          · have := g.2.2.2 cond hO.startX; rw [hc] at this; cases this
      · right; right; left
        refine ⟨started_report (hm x) i1 ?_, ?_⟩
        · rcases sx with ⟨_, _, _, _, _, f, g, g'⟩ | ⟨_, _, g, _⟩ | ⟨g, _, _, g' | g' | g'⟩ | ⟨g, _⟩
          · simp at g; subst g; simp [hc, not3] at g'
          · cases g
          · exact absurd g' (told x hax (by rw [g, i1]; simp))
          · simp [Says] at g'
          · simp [Says, hc, not3] at g'
          · exact g
        · rcases sy with ⟨_, _, _, _, g, _⟩ | ⟨_, _, g, _⟩ | ⟨g, _⟩ | ⟨_, _, g⟩
          · simp [Says, hc, not3] at g
          · cases g
          · exact g
          · have := g.2.2.2 _ hO.startY; simp [hc, not3] at this
    · exact .inr (.inr (.inl ⟨hmono x i1, by rw [step_finished hs hay i2 hpw]; exact i2⟩))
    · exact .inr (.inr (.inr ⟨hmono y i1, by rw [step_finished hs hax i2 hpw]; exact i2⟩))

end Verif.Epx
