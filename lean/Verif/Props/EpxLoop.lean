import Verif.Props.EpxTry
/-
C123: For and Do.
-/
set_option autoImplicit false
set_option linter.unusedSimpArgs false
namespace Verif.Props.Epx
open Verif.Node Verif.Exec Verif.Epx Verif.Props.Sync

variable {Val Env : Type} {P : Plan Val Env}

/-- A transition in the history follows the rules. -/
theorem event_decided (hN : Notifies P) (hA : PlanTree P) {ph : Phase} {s : St Val Env} (h : ReachN P ph s) {n : NodeId} {a b o} (he : .trans n a b o ∈ s.log) :
    o.st n = a ∧ ∃ d, decideNext P o n = some d ∧ d.state = b := by
  obtain ⟨L, t, B, B', h1, h2, h3, h4, h5⟩ := h.event hN hA.tree he
  obtain ⟨_, d, hd, e⟩ := h2.moved (k := n) (by rw [← h4, ← h3]; exact fun e => h5 e.symm)
  exact ⟨h3.symm, d, hd, e.trans h4.symm⟩

/-- From ITERATION_ENDED. -/
theorem decide_iterationEnded {o : Obs Val Env} {n : NodeId} (hs : o.st n = .iterationEnded) {d : Dest} (hd : decideNext P o n = some d) :
    (ToldToStop P o n ∧ d.state = .finished) ∨ (¬ ToldToStop P o n ∧ Says (P.node n).rep o (some true) ∧ d.state = .waiting) ∨
    (¬ ToldToStop P o n ∧ (∀ f, (P.node n).rep = some f → f o = some false) ∧ d.state = .finished) := by
  rw [told_iff]
  have hr : (conds P o n).rep = evalC (P.node n).rep o := rfl
  unfold decideNext at hd
  rw [hs] at hd
  simp only [getDest, fromIterationEnded, hr] at hd
  cases h1 : isT (conds P o n).ancExit <;> rw [h1] at hd
  · cases h2 : isF (conds P o n).ancInv <;> rw [h2] at hd
    · cases h3 : isT (conds P o n).ancEnd <;> rw [h3] at hd
      · simp at hd
        cases hrep : (P.node n).rep with
        | none => rw [hrep] at hd; simp [evalC, isT] at hd; simp [← hd]
        | some f =>
          rw [hrep] at hd
          rw [show evalC (some f) o = some (f o) from rfl] at hd
          simp only [Says, Option.some.injEq, forall_eq', exists_eq_left']
          generalize f o = v at hd ⊢
          rcases v with _ | _ | _ <;> simp [isT] at hd <;> simp [← hd]
      · simp at hd; simp [← hd]
    · simp at hd; simp [← hd]
  · simp at hd; simp [← hd]

/-! ## C123 -/

/-- C123: an iteration of a For starts only when the condition is not false; the loop variable is updated only after the action is FINISHED; the loop ends only when the condition is false, or
when it is told to stop. -/
theorem C123_for (hN : Notifies P) (hA : PlanTree P) {ph : Phase} {s : St Val Env} (h : ReachN P ph s) {loop : NodeId} {anc : List NodeId}
    {cond : Obs Val Env → Option Bool} {a : NodeId × NodeDef Val Env} {upd : NodeId} {var : Nat} {next : Obs Val Env → Val}
    (hc : Contains P (forLoop loop anc cond a upd var next)) {o : Obs Val Env} :
    (∀ x, .trans loop .waiting x o ∈ s.log → x = .executing ∨ x = .iterationEnded → cond o ≠ some false) ∧
    (∀ x, .trans upd .waiting x o ∈ s.log → x = .executing ∨ x = .iterationEnded → nodeFinished a.1 o = some true) ∧
    (∀ x, .trans loop x .finished o ∈ s.log → x = .waiting ∨ x = .iterationEnded → cond o = some false ∨ ToldToStop P o loop) := by
  have h0 := hc _ (by unfold forLoop; exact List.mem_cons_self)
  have h2 := hc _ (by unfold forLoop; exact List.mem_cons_of_mem _ (List.mem_cons_of_mem _ List.mem_cons_self))
  simp only at h0 h2
  refine ⟨fun x he hx hf => ?_, fun x he hx => ?_, fun x he hx => ?_⟩
  · exact (start_event hN hA h he hx).2.2.1 (by rw [h0]; exact ⟨_, rfl, by simp [hf, not3]⟩)
  · exact (start_event hN hA h he hx).2.2.2 _ (by rw [h2])
  · obtain ⟨g1, d, g2, g3⟩ := event_decided hN hA h he
    rcases hx with rfl | rfl
    · rcases decide_waiting (P := P) (o := o) g1 with ⟨g | g | g, _⟩ | ⟨_, _, _, ⟨_, g⟩ | ⟨_, ⟨_, g⟩ | ⟨_, g⟩⟩⟩
      · exact .inr g
      · rw [h0] at g; obtain ⟨f, g, _⟩ := g; cases g
      · rw [h0] at g
        obtain ⟨f, g, g'⟩ := g
        cases g
        left
        replace g' : not3 (cond o) = some true := g'
        revert g'
        rcases cond o with _ | _ | _ <;> simp [not3]
      · rw [g] at g2; cases g2
      · rw [g] at g2; cases g2; cases g3
      · rw [g] at g2; cases g2; cases g3
    · rcases decide_iterationEnded g1 g2 with ⟨g, _⟩ | ⟨_, _, g⟩ | ⟨_, g, _⟩
      · exact .inr g
      · rw [g] at g3; cases g3
      · have := g _ (by rw [h0]); cases this

/-- C123: a Do repeats only when its condition is true, and ends, after an iteration, only when its condition is false or it is told to stop. -/
theorem C123_do (hN : Notifies P) (hA : PlanTree P) {ph : Phase} {s : St Val Env} (h : ReachN P ph s) {cond : Obs Val Env → Option Bool}
    {a : NodeId × NodeDef Val Env} (hc : Contains P (doLoop cond a)) {o : Obs Val Env} :
    (.trans a.1 .iterationEnded .waiting o ∈ s.log → cond o = some true) ∧
    (.trans a.1 .iterationEnded .finished o ∈ s.log → cond o = some false ∨ ToldToStop P o a.1) := by
  have h0 := hc (a.1, _) (by unfold doLoop; exact List.mem_cons_self)
  simp only at h0
  refine ⟨fun he => ?_, fun he => ?_⟩
  · obtain ⟨g1, d, g2, g3⟩ := event_decided hN hA h he
    rcases decide_iterationEnded g1 g2 with ⟨_, g⟩ | ⟨_, ⟨f, g, g'⟩, _⟩ | ⟨_, _, g⟩
    · rw [g] at g3; cases g3
    · rw [h0] at g; cases g; exact g'
    · rw [g] at g3; cases g3
  · obtain ⟨g1, d, g2, g3⟩ := event_decided hN hA h he
    rcases decide_iterationEnded g1 g2 with ⟨g, _⟩ | ⟨_, _, g⟩ | ⟨_, g, _⟩
    · exact .inr g
    · rw [g] at g3; cases g3
    · exact .inl (g _ (by rw [h0]))

/-! ## Loops -/

set_option maxRecDepth 10000

/-- A For loop (0) over variable 0, as long as it is below 2, with action 1 and update 2. -/
def twice : Block Int Nat := forLoop 0 [] (fun o => some (decide (o.vars 0 < 2))) (1, plain [0]) 2 0 (fun o => o.vars 0 + 1)

/-- The hypotheses of `C123_for` are met: the loop starts, the variable is updated, the loop ends with the variable at 2. -/
example : ∃ s, ReachN (planOf twice) .idle s ∧ (∃ o, .trans 0 .waiting .executing o ∈ s.log) ∧ (∃ o, .trans 2 .waiting .executing o ∈ s.log) ∧
    (∃ o, .trans 0 .waiting .finished o ∈ s.log) ∧ s.vars 0 = 2 := by
  obtain ⟨ph, s, h, hf⟩ := exists_runN (planOf_good twice) [.cmd (.ext 0 [0, 1, 2]), .macroStep, .macroStep, .macroStep, .macroStep] rfl (fun _ => 0) 0
    (fun x => (x.1, x.2.log.any (goesAt 0 .waiting .executing), x.2.log.any (goesAt 2 .waiting .executing), x.2.log.any (goesAt 0 .waiting .finished), x.2.vars 0))
    (.idle, true, true, true, 2) rfl
  simp only [Prod.mk.injEq] at hf
  obtain ⟨rfl, h1, h2, h3, h4⟩ := hf
  exact ⟨s, h, goes_mem h1, goes_mem h2, goes_mem h3, h4⟩

/-- A For loop whose condition is unknown. -/
def adrift : Block Int Nat := forLoop 0 [] (fun _ => none) (1, { plain [0] with endc := some fun o => some (o.env == 1) }) 2 0 (fun o => o.vars 0 + 1)

/-- C123: an iteration of a For starts even if the condition is not true, namely unknown, unlike an iteration of a While. (`for.xsl:65-69`: the loop is skipped when the negation of the
condition is true.) -/
theorem C123_unknown_refuted : Notifies (planOf adrift) ∧ PlanTree (planOf adrift) ∧ Contains (planOf adrift) adrift ∧ ∃ s, ReachN (planOf adrift) .idle s ∧ s.st 1 = .executing := by
  refine ⟨planOf_notifies adrift, planOf_tree (top := 2) rfl, planOf_contains (by decide) fun _ h => h, ?_⟩
  obtain ⟨ph, s, h, hf⟩ := exists_runN (planOf_good adrift) [.cmd (.ext 0 [0, 1, 2]), .macroStep] rfl (fun _ => 0) 0
    (fun x => (x.1, x.2.st 1)) (.idle, .executing) rfl
  simp only [Prod.mk.injEq] at hf
  obtain ⟨rfl, h1⟩ := hf
  exact ⟨s, h, h1⟩

/-- The hypotheses of `C123_do` are met: the node repeats when env is 1, and ends when env is 3. -/
example : ∃ s, ReachN (planOf (doLoop (fun o => some (o.env == 1)) (0, { plain [] with start := some fun o => some (o.env != 1), endc := some fun o => some (o.env != 0) }))) .idle s ∧
    (∃ o, .trans 0 .iterationEnded .waiting o ∈ s.log) ∧ (∃ o, .trans 0 .iterationEnded .finished o ∈ s.log) := by
  obtain ⟨ph, s, h, hf⟩ := exists_runN (planOf_good (doLoop (fun o => some (o.env == 1)) (0, { plain [] with start := some fun o => some (o.env != 1), endc := some fun o => some (o.env != 0) })))
    [.cmd (.ext 0 [0]), .macroStep, .cmd (.ext 1 [0]), .macroStep, .cmd (.ext 3 [0]), .macroStep] rfl (fun _ => 0) 0
    (fun x => (x.1, x.2.log.any (goesAt 0 .iterationEnded .waiting), x.2.log.any (goesAt 0 .iterationEnded .finished))) (.idle, true, true) rfl
  simp only [Prod.mk.injEq] at hf
  obtain ⟨rfl, h1, h2⟩ := hf
  exact ⟨s, h, goes_mem h1, goes_mem h2⟩

end Verif.Props.Epx
