import Verif.Exec.Lost
import Verif.Exec.RunN
/-
C06, C08, C09, C32, C33: quiescence, and nodes that are forgotten.
-/
namespace Verif.Props.Quiet
open Verif.Node Verif.Exec

variable {Val Env : Type} {P : Plan Val Env}

/-! ## C08 -/

/-- C08: when a macro step has ended with nothing left to check, a node that needs no mutex or variable has no enabled transition
(unless it is a root that was never added to the executive), provided every change of a condition notifies the nodes concerned. -/
theorem C08_quiescence (hN : Notifies P) (hT : TreeOK P) {s : St Val Env} (h : ReachN P .idle s) (hc : s.cand = []) (n : NodeId)
    (hres : acquiresResources P n = false) (hroot : (P.node n).anc = [] → s.st n ≠ .inactive) : decideNext P s.obs n = none := by
  have hD := h.dinv hN hT
  obtain ⟨hI, hid, _⟩ := h.reach.inv
  have hnone : s.q n = .none ∨ s.q n = .delete := by
    have h1 : s.q n ≠ .check := fun e => by have := (hI.Q.candIff n).2 e; rw [hc] at this; cases this
    have h2 : ∀ x, s.q n = x → ¬ IsPend x := fun x e hx => by
      have := (hD.acq n (e ▸ hx)).1; rw [hres] at this; cases this
    have h3 : ¬ (s.q n = .transition ∨ s.q n = .transitionCheck) := fun e => by
      have := hI.Q.transIn n e; rw [hid rfl] at this; cases this
    cases hq : s.q n with
    | none => exact .inl rfl
    | delete => exact .inr rfl
    | check => exact absurd hq h1
    | transition => exact absurd (.inl hq) h3
    | transitionCheck => exact absurd (.inr hq) h3
    | _ => exact absurd trivial (h2 _ hq)
  rcases hnone with hq | hq
  · rcases hD.quiet n hq with g | ⟨g1, g2⟩
    · exact g
    · exact absurd g2 (hroot g1)
  · obtain ⟨g1, g2⟩ := hD.del n hq
    unfold decideNext parentState
    rw [g2, show s.obs.st n = .finished from g1]; rfl

/-- C08 for nodes that need mutexes or variables: if nothing is left to check, such a node has no enabled transition, or it is a root never added,
or it is WAITING and recorded as waiting for a resource; and if it is in the queue of waiting nodes and has not been notified since, then
the transition it is waiting to make, to EXECUTING, is still the enabled one. -/
theorem C08_quiescence_resources (hN : Notifies P) (hT : TreeOK P) {s : St Val Env} (h : ReachN P .idle s) (hc : s.cand = []) (n : NodeId)
    (hroot : (P.node n).anc = [] → s.st n ≠ .inactive) :
    (decideNext P s.obs n = none ∨ (IsPend (s.q n) ∧ s.st n = .waiting ∧ acquiresResources P n = true)) ∧
    (n ∈ s.pending → (s.q n = .pending ∨ s.q n = .pendingTry) → decideNext P s.obs n = some ⟨.executing, .none, .none⟩) := by
  have hD := h.dinv hN hT
  obtain ⟨hI, hid, _⟩ := h.reach.inv
  refine ⟨?_, fun h1 h2 => hD.pend n h1 h2⟩
  have h1 : s.q n ≠ .check := fun e => by have := (hI.Q.candIff n).2 e; rw [hc] at this; cases this
  have h3 : ¬ (s.q n = .transition ∨ s.q n = .transitionCheck) := fun e => by
    have := hI.Q.transIn n e; rw [hid rfl] at this; cases this
  cases hq : s.q n with
  | none =>
    rcases hD.quiet n hq with g | ⟨g1, g2⟩
    · exact .inl g
    · exact absurd g2 (hroot g1)
  | delete =>
    obtain ⟨g1, g2⟩ := hD.del n hq
    left
    unfold decideNext parentState
    rw [g2, show s.obs.st n = .finished from g1]; rfl
  | check => exact absurd hq h1
  | transition => exact absurd (.inl hq) h3
  | transitionCheck => exact absurd (.inr hq) h3
  | _ => exact .inr ⟨trivial, (hD.acq n (by rw [hq]; trivial)).symm⟩

/-- A list (0) with an Empty child (1) that starts when env is 1 and ends when env is 2, and a child (2) that does the same with
mutex 0. The list is notified when a child changes state, the children by the environment. -/
def watching : Plan Int Nat where
  node := fun
    | 0 => { type := .list, children := [1, 2], rhs := fun _ => 0, rep := some fun _ => some false }
    | 1 => { type := .empty, anc := [0], rhs := fun _ => 0, start := some fun o => some (o.env == 1), endc := some fun o => some (o.env == 2),
             rep := some fun _ => some false }
    | 2 => { type := .empty, anc := [0], rhs := fun _ => 0, start := some fun o => some (o.env == 1), endc := some fun o => some (o.env == 2),
             mutexes := [0], rep := some fun _ => some false }
    | _ => { type := .empty, rhs := fun _ => 0 }
  wake := fun
    | .post 1 => fun _ => [0]
    | .post 2 => fun _ => [0]
    | _ => fun _ => []

theorem watching_conds (o1 o2 : Obs Int Nat) (k : NodeId) (h0 : k = 0 → o1.st 1 = o2.st 1 ∧ o1.st 2 = o2.st 2)
    (h1 : k = 1 ∨ k = 2 → o1.env = o2.env) : conds watching o1 k = conds watching o2 k := by
  match k with
  | 0 => obtain ⟨e1, e2⟩ := h0 rfl; simp [conds, watching, ancExit, ancInv, ancEnd, evalC, allFinished, allWaitingOrFinished, e1, e2]
  | 1 => simp [conds, watching, ancExit, ancInv, ancEnd, evalC, orC, andC, h1 (.inl rfl)]
  | 2 => simp [conds, watching, ancExit, ancInv, ancEnd, evalC, orC, andC, h1 (.inr rfl)]
  | k + 3 => simp [conds, watching, ancExit, ancInv, ancEnd, evalC]

theorem watching_same {o1 o2 : Obs Int Nat} {k : NodeId} (h : conds watching o1 k = conds watching o2 k) (hs : o2.st = o1.st) (hf : o2.fail = o1.fail) :
    decideNext watching o1 k = decideNext watching o2 k := by
  unfold decideNext parentState; rw [h, hs, hf]

theorem watching_notifies : Notifies watching := by
  constructor
  · intro n o1 om o2 hm _ _ _ k hk hne
    by_cases hn : n = 1 ∨ n = 2
    · by_cases h0 : k = 0
      · right; subst h0; rcases hn with e | e <;> subst e <;> simp [watching]
      · exfalso; apply hne
        unfold decideWith decideNext
        rw [watching_conds o1 o2 k (fun e => absurd e h0)]
        intro _; rcases hm.env with e | e <;> rw [e]; rfl
    · exfalso; apply hne
      unfold decideWith decideNext
      rw [watching_conds o1 o2 k]
      · intro _
        rw [hm.st 1 (fun e => hn (.inl e.symm)), hm.st 2 (fun e => hn (.inr e.symm))]
        exact ⟨rfl, rfl⟩
      · intro _; rcases hm.env with e | e <;> rw [e]; rfl
  · intro n o1 o2 hw k hne
    exact absurd (watching_same (watching_conds o1 o2 k (fun _ => by rw [hw.st]; exact ⟨rfl, rfl⟩) (fun _ => hw.env.symm)) hw.st hw.fail) hne
  · intro n o1 o2 hw k hne
    exact absurd (watching_same (watching_conds o1 o2 k (fun _ => by rw [hw.st]; exact ⟨rfl, rfl⟩) (fun _ => hw.env.symm)) hw.st hw.fail) hne
  · intro n o1 o2 hw _ k hne
    exact absurd (watching_same (watching_conds o1 o2 k (fun _ => by rw [hw.st]; exact ⟨rfl, rfl⟩) (fun _ => hw.env.symm)) hw.st hw.fail) hne

theorem watching_tree : TreeOK watching := by
  intro k p h
  match k with
  | 0 => simp [watching] at h
  | 1 => simp [watching] at h; subst h; simp [watching]
  | 2 => simp [watching] at h; subst h; simp [watching]
  | k + 3 => simp [watching] at h

theorem watching_good (s : St Int Nat) (e : Nat) (ns : List NodeId) (h : (ns.contains 1 && ns.contains 2) = true) :
    ∀ k, decideNext watching { s.obs with env := e } k ≠ decideNext watching s.obs k → k ∈ ns := by
  intro k hk
  simp at h
  by_cases h1 : k = 1
  · exact h1 ▸ h.1
  · by_cases h2 : k = 2
    · exact h2 ▸ h.2
    · refine absurd ?_ hk
      exact watching_same (watching_conds _ _ k (fun _ => ⟨rfl, rfl⟩) (fun e => absurd e (by simp [h1, h2]))) rfl rfl

/-- The hypotheses of C08 are met in the middle of a plan, and again at its end. -/
example : ∃ s, ReachN watching .idle s ∧ s.cand = [] ∧ s.st 0 = .executing ∧ s.st 1 = .executing ∧ s.st 2 = .executing ∧
    decideNext watching s.obs 1 = none := by
  obtain ⟨ph, s, h, hf⟩ := exists_runN watching_good [.cmd (.ext 0 [0, 1, 2]), .macroStep, .cmd (.ext 1 [1, 2]), .macroStep] rfl (fun _ => 0) 0
    (fun x => (x.1, x.2.cand, x.2.st 0, x.2.st 1, x.2.st 2)) (.idle, [], .executing, .executing, .executing) rfl
  simp only [Prod.mk.injEq] at hf
  obtain ⟨rfl, h1, h2, h3, h4⟩ := hf
  exact ⟨s, h, h1, h2, h3, h4, C08_quiescence watching_notifies watching_tree h h1 1 rfl (by simp [watching])⟩

example : ∃ s, ReachN watching .idle s ∧ s.cand = [] ∧ s.st 0 = .finished ∧ s.out 0 = .success := by
  obtain ⟨ph, s, h, hf⟩ := exists_runN watching_good
    [.cmd (.ext 0 [0, 1, 2]), .macroStep, .cmd (.ext 1 [1, 2]), .macroStep, .cmd (.ext 2 [1, 2]), .macroStep] rfl (fun _ => 0) 0
    (fun x => (x.1, x.2.cand, x.2.st 0, x.2.out 0)) (.idle, [], .finished, .success) rfl
  simp only [Prod.mk.injEq] at hf
  obtain ⟨rfl, h1, h2, h3⟩ := hf
  exact ⟨s, h, h1, h2, h3⟩

/-! ## C09 -/

/-- Four roots: an Empty node (0) with mutex 0 that ends when env is 3; an Empty node (1) with the same mutex that may start unless env is
4; an Empty node (2) with the same mutex and lower priority that ends when env is 5; a command (3) that starts when env is 3.
Their conditions depend on the environment only. -/
def rivals : Plan Int Nat where
  node := fun
    | 0 => { type := .empty, rhs := fun _ => 0, mutexes := [0], endc := some fun o => some (o.env == 3), rep := some fun _ => some false }
    | 1 => { type := .empty, rhs := fun _ => 0, mutexes := [0], start := some fun o => some (o.env != 4), rep := some fun _ => some false }
    | 2 => { type := .empty, rhs := fun _ => 0, mutexes := [0], priority := 1, endc := some fun o => some (o.env == 5),
             rep := some fun _ => some false }
    | 3 => { type := .command, rhs := fun _ => 0, start := some fun o => some (o.env == 3), endc := some fun _ => some false,
             rep := some fun _ => some false }
    | _ => { type := .empty, rhs := fun _ => 0 }
  wake := fun _ _ => []

theorem rivals_conds (o1 o2 : Obs Int Nat) (k : NodeId) (he : o1.env = o2.env) : conds rivals o1 k = conds rivals o2 k := by
  match k with
  | 0 | 1 | 2 | 3 => simp [conds, rivals, ancExit, ancInv, ancEnd, evalC, he]
  | k + 4 => simp [conds, rivals, ancExit, ancInv, ancEnd, evalC]

theorem rivals_same {o1 o2 : Obs Int Nat} (k : NodeId) (he : o1.env = o2.env) (hs : o2.st = o1.st) (hf : o2.fail = o1.fail) :
    decideNext rivals o1 k = decideNext rivals o2 k := by
  unfold decideNext parentState; rw [rivals_conds o1 o2 k he, hs, hf]

theorem rivals_notifies : Notifies rivals := by
  constructor
  · intro n o1 om o2 hm _ _ _ k hk hne
    refine absurd ?_ hne
    unfold decideWith decideNext
    rw [rivals_conds o1 o2 k (by rcases hm.env with e | e <;> rw [e]; rfl)]
  · intro n o1 o2 hw k hne; exact absurd (rivals_same k hw.env.symm hw.st hw.fail) hne
  · intro n o1 o2 hw k hne; exact absurd (rivals_same k hw.env.symm hw.st hw.fail) hne
  · intro n o1 o2 hw _ k hne; exact absurd (rivals_same k hw.env.symm hw.st hw.fail) hne

theorem rivals_good (s : St Int Nat) (e : Nat) (ns : List NodeId) (h : (ns == [0, 1, 2, 3]) = true) :
    ∀ k, decideNext rivals { s.obs with env := e } k ≠ decideNext rivals s.obs k → k ∈ ns := by
  intro k hk
  simp at h; subst h
  match k with
  | 0 | 1 | 2 | 3 => simp
  | k + 4 =>
    refine absurd ?_ hk
    unfold decideNext parentState
    simp [conds, rivals, ancExit, ancInv, ancEnd, evalC, St.obs]

/-- C09 is false of the code. With all notifications as they should be: node 1 is WAITING, all its conditions to start are true, the only mutex
it needs is free, nothing is left to check, and whatever happens from now on, node 1 stays WAITING forever. (Its start condition became
false and true again while it was waiting for the mutex: `PlexilExec.cc:486-542` removes it from the pending queue and then sets its
status to QUEUE_PENDING, so that later notifications are swallowed, `NodeImpl.cc:584-589`.) -/
theorem C09_lost_node : Notifies rivals ∧ TreeOK rivals ∧ ∃ s, ReachN rivals .idle s ∧ s.st 1 = .waiting ∧
    decideNext rivals s.obs 1 = some ⟨.executing, .none, .none⟩ ∧ (∀ r ∈ resources rivals 1, s.holder r = none) ∧ s.cand = [] ∧
    ∀ ph' s', Continues rivals (.idle, s) (ph', s') → s'.st 1 = .waiting := by
  refine ⟨rivals_notifies, fun k p h => ?_, ?_⟩
  · match k with
    | 0 | 1 | 2 | 3 => simp [rivals] at h
    | k + 4 => simp [rivals] at h
  obtain ⟨ph, s, h, hf⟩ := exists_runN rivals_good
    [.cmd (.ext 0 [0, 1, 2, 3]), .macroStep, .cmd (.ext 4 [0, 1, 2, 3]), .macroStep, .cmd (.ext 0 [0, 1, 2, 3]), .macroStep,
     .cmd (.ext 3 [0, 1, 2, 3]), .macroStep, .macroStep, .cmd (.ext 5 [0, 1, 2, 3]), .macroStep] rfl (fun _ => 0) 0
    (fun x => (x.1, x.2.st 1, decideNext rivals x.2.obs 1, x.2.holder (.mutex 0), x.2.cand, x.2.q 1, x.2.pending, x.2.change))
    (.idle, .waiting, some ⟨.executing, .none, .none⟩, none, [], .pendingCheck, [], []) rfl
  simp only [Prod.mk.injEq] at hf
  obtain ⟨rfl, h1, h2, h3, h4, h5, h6, h7⟩ := hf
  refine ⟨s, h, h1, h2, ?_, h4, ?_⟩
  · intro r hr
    simp [resources, rivals] at hr
    subst hr; exact h3
  · intro ph' s' hc
    have : ∀ x y, Continues rivals x y → Reach rivals x.1 x.2 → Lost false 1 x.2 → Reach rivals y.1 y.2 ∧ Lost false 1 y.2 ∧ y.2.st 1 = x.2.st 1 := by
      intro x y hxy hx hl
      induction hxy with
      | refl => exact ⟨hx, hl, rfl⟩
      | @step y z _ hs ih =>
        obtain ⟨i1, i2, i3⟩ := ih
        obtain ⟨j1, j2⟩ := i2.step (ph := y.1) (s := y.2) i1 hs
        exact ⟨i1.step (ph := y.1) (s := y.2) hs, j1, j2.trans i3⟩
    obtain ⟨_, _, g⟩ := this _ _ hc h.reach ⟨by rw [h6]; simp, by rw [h7]; simp, .inr h5⟩
    exact g.trans h1

/-- C09, second way it fails: node 2 is ready, the mutex it waits for is free, and nothing is left to check, so the macro step ends without trying
it (node 1, ahead of it in the queue, was removed from the queue, which ends the traversal, `PlexilExec.cc:557-563`). It is
tried in the next macro step, if there is one. -/
theorem C09_skipped_node : Notifies rivals ∧ ∃ s, ReachN rivals .idle s ∧ s.st 2 = .waiting ∧
    decideNext rivals s.obs 2 = some ⟨.executing, .none, .none⟩ ∧ (∀ r ∈ resources rivals 2, s.holder r = none) ∧ s.cand = [] := by
  refine ⟨rivals_notifies, ?_⟩
  obtain ⟨ph, s, h, hf⟩ := exists_runN rivals_good
    [.cmd (.ext 0 [0, 1, 2, 3]), .macroStep, .cmd (.ext 3 [0, 1, 2, 3]), .macroStep, .cmd (.ext 4 [0, 1, 2, 3]), .macroStep] rfl (fun _ => 0) 0
    (fun x => (x.1, x.2.st 2, decideNext rivals x.2.obs 2, x.2.holder (.mutex 0), x.2.cand))
    (.idle, .waiting, some ⟨.executing, .none, .none⟩, none, []) rfl
  simp only [Prod.mk.injEq] at hf
  obtain ⟨rfl, h1, h2, h3, h4⟩ := hf
  refine ⟨s, h, h1, h2, ?_, h4⟩
  intro r hr
  simp [resources, rivals] at hr
  subst hr; exact h3

end Verif.Props.Quiet
