import Verif.Exec.Exit
import Verif.Exec.RunN
import Verif.Exec.Serve
/-
C115: a plan whose exit condition is true comes to an end.
-/
set_option autoImplicit false
set_option maxRecDepth 100000
namespace Verif.Props.Exit
open Verif.Node Verif.Exec

variable {Val Env : Type} {P : Plan Val Env}

/-- C115, no start: no node at or below a node whose exit condition is true at the start of a micro step starts executing in it. -/
theorem C115_no_start (hN : Notifies P) (hA : PlanTree P) {ph : Phase} {s : St Val Env} (h : ReachN P ph s) {r k a o}
    (hk : Within P r k) (hl : .trans k a .executing o ∈ s.log) : ¬ ToldToExit P r o := by
  intro ht
  have hd := h.logReady hN hA.tree k a o hl
  have := rank_drop hd (by rw [(getDest_executing (hd := rfl) hd).1]; cases (P.node k).type <;> trivial) (told_conds ht hk)
  exact this.2.1 rfl

/-- C115, termination: take any stretch `L1` of the history during which, at each transition of a node of the plan, the exit condition of the
plan's root was true. However long it lasts, a node at depth `d` makes at most `8 ^ (d + 1) - 1` transitions in it. -/
theorem C115_bounded (hN : Notifies P) (hA : PlanTree P) {r : NodeId} (hr : (P.node r).anc = []) {ph : Phase} {s : St Val Env}
    (h : ReachN P ph s) {L0 L1} (hl : s.log = L0 ++ L1)
    (ha : ∀ k a b o, .trans k a b o ∈ L1 → Within P r k → ToldToExit P r o) {k} (hk : Within P r k) :
    moves k L1 + 1 ≤ 8 ^ ((P.node k).anc.length + 1) :=
  h.moves_pow hN hA.tree hA hr hl ha hk

/-- C115, termination below any node, root or not: the transitions of each node are bounded by those of its parent. -/
theorem C115_bounded_by_parent (hN : Notifies P) (hA : PlanTree P) {r : NodeId} {ph : Phase} {s : St Val Env} (h : ReachN P ph s)
    {L0 L1} (hl : s.log = L0 ++ L1) (ha : ∀ k a b o, .trans k a b o ∈ L1 → Within P r k → ToldToExit P r o) {k p l} (hk : Within P r k)
    (hp : (P.node k).anc = p :: l) : moves k L1 ≤ 8 * moves p L1 + 15 := by
  have := h.moves_le hN hA.tree hl ha hk
  rw [hp] at this
  have : moves k L1 ≤ 8 * (moves p L1 + 1) + 7 := this
  omega

/-- C115: between macro steps, no child of a list that is FAILING or FINISHING is INACTIVE, so the list can wait for its children. -/
theorem C115_children_active (hN : Notifies P) (hA : PlanTree P) {s : St Val Env} (h : ReachN P .idle s) {p c}
    (hc : c ∈ (P.node p).children) (hp : s.st p = .failing ∨ s.st p = .finishing) : s.st c ≠ .inactive :=
  (h.noneLeft hN hA.tree).1 (by simp) p c _ (hA.child p c hc) hp

/-- C115, at rest: suppose nothing is left to check, the root's exit condition is true, the root has been started, and the outside world has
confirmed the abort of every FAILING command and acknowledged every FAILING update of the plan. Then the root is FINISHED, or in ITERATION_ENDED with a Repeat condition
of unknown value, or waits for a mutex or variable; and every node below it is FINISHED, or waits for a mutex or variable, or is INACTIVE
below a node that is not FINISHED. -/
theorem C115_at_rest_partial (hN : Notifies P) (hA : PlanTree P) {s : St Val Env} (h : ReachN P .idle s) (hc : s.cand = []) {r : NodeId}
    (hr : (P.node r).anc = []) (hrs : s.st r ≠ .inactive) (ht : ToldToExit P r s.obs)
    (hcmd : ∀ k, Within P r k → (P.node k).type = .command → s.st k = .failing → (P.node k).abortDone s.obs = some true)
    (hupd : ∀ k, Within P r k → (P.node k).type = .update → s.st k = .failing → s.ack k = true) :
    (s.st r = .finished ∨ (s.st r = .iterationEnded ∧ ∃ c, (P.node r).rep = some c ∧ c s.obs = none) ∨
      (s.st r = .waiting ∧ acquiresResources P r = true)) ∧
    ∀ k, r ∈ (P.node k).anc → s.st k = .finished ∨ (s.st k = .waiting ∧ acquiresResources P k = true) ∨
      (s.st k = .inactive ∧ ∃ p, (P.node k).anc.head? = some p ∧ s.st p ≠ .finished) := by
  have hT := hA.tree
  obtain ⟨hI, hid, _⟩ := h.reach.inv
  have hD := h.dinv hN hT
  have hrest := h.rest hN hA hc hr hrs ht hcmd hupd
  have hwait : ∀ k, Within P r k → s.st k = .waiting → acquiresResources P k = true := by
    intro k hk hw
    refine (hD.stuck hI (hid rfl) hc (fun _ => by rw [hw]; simp) ?_).2
    unfold decideNext
    rw [show s.obs.st k = .waiting from hw]
    simp only [getDest, fromWaiting]
    rcases told_conds ht hk with hx | hx
    · rw [if_pos hx]; simp
    · by_cases h1 : isT (conds P s.obs k).ancExit = true
      · rw [if_pos h1]; simp
      · rw [if_neg h1, if_pos hx]; simp
  constructor
  · cases hs : s.st r with
    | inactive => exact absurd hs hrs
    | waiting => exact .inr (.inr ⟨rfl, hwait r (.inl rfl) hs⟩)
    | finished => exact .inl rfl
    | iterationEnded =>
      refine .inr (.inl ⟨rfl, ?_⟩)
      have hd : decideNext P s.obs r = none := Classical.byContradiction fun e => by
        have := (hD.stuck hI (hid rfl) hc (fun _ => hrs) e).1; rw [hs] at this; cases this
      unfold decideNext at hd
      rw [show s.obs.st r = .iterationEnded from hs] at hd
      have e1 : (conds P s.obs r).ancExit = none := by show ancExit P s.obs r = none; unfold ancExit; rw [hr]; rfl
      have e2 : (conds P s.obs r).ancInv = none := by show ancInv P s.obs r = none; unfold ancInv; rw [hr]; rfl
      have e3 : (conds P s.obs r).ancEnd = none := by show ancEnd P s.obs r = none; unfold ancEnd; rw [hr]; rfl
      have e4 : (conds P s.obs r).rep = evalC (P.node r).rep s.obs := rfl
      simp only [getDest, fromIterationEnded, e1, e2, e3, e4, isT, isF] at hd
      cases hrep : (P.node r).rep with
      | none => rw [hrep] at hd; simp [evalC] at hd
      | some c =>
        refine ⟨c, rfl, ?_⟩
        rw [hrep] at hd
        cases hv : c s.obs with
        | none => rfl
        | some b => cases b <;> simp [evalC, hv] at hd
    | executing => exact absurd (.inl hs) (hrest r (.inl rfl)).1
    | failing => exact absurd (.inr (.inr hs)) (hrest r (.inl rfl)).1
    | finishing => exact absurd (.inr (.inl hs)) (hrest r (.inl rfl)).1
  · intro k hk
    obtain ⟨g1, g2⟩ := hrest k (.inr hk)
    cases hs : s.st k with
    | inactive =>
      refine .inr (.inr ⟨rfl, ?_⟩)
      cases ha : (P.node k).anc with
      | nil => rw [ha] at hk; cases hk
      | cons p l =>
        refine ⟨p, rfl, fun hp => ?_⟩
        have hd : decideNext P s.obs k = none := Classical.byContradiction fun e => by
          have := (hD.stuck hI (hid rfl) hc (by rw [ha]; simp) e).1; rw [hs] at this; cases this
        unfold decideNext parentState at hd
        rw [show s.obs.st k = .inactive from hs, ha] at hd
        simp only [List.head?_cons, Option.map_some] at hd
        rw [show s.obs.st p = .finished from hp] at hd
        simp [getDest, fromInactive] at hd
    | waiting => exact .inr (.inl ⟨rfl, hwait k (.inr hk) hs⟩)
    | finished => exact .inl rfl
    | iterationEnded => exact absurd hs (g2 hk)
    | executing => exact absurd (.inl hs) g1
    | failing => exact absurd (.inr (.inr hs)) g1
    | finishing => exact absurd (.inr (.inl hs)) g1

/-- C115, for a plan without mutexes and assignments whose Repeat conditions are known: at rest, the whole plan is FINISHED. -/
theorem C115_all_finished_partial (hN : Notifies P) (hA : PlanTree P) {s : St Val Env} (h : ReachN P .idle s) (hc : s.cand = []) {r : NodeId}
    (hr : (P.node r).anc = []) (hrs : s.st r ≠ .inactive) (ht : ToldToExit P r s.obs)
    (hcmd : ∀ k, Within P r k → (P.node k).type = .command → s.st k = .failing → (P.node k).abortDone s.obs = some true)
    (hupd : ∀ k, Within P r k → (P.node k).type = .update → s.st k = .failing → s.ack k = true)
    (hrep : ∀ c, (P.node r).rep = some c → c s.obs ≠ none)
    (hres : ∀ k, Within P r k → (P.node k).mutexes = [] ∧ (P.node k).type ≠ .assignment) {k} (hk : Within P r k) : s.st k = .finished := by
  obtain ⟨h1, h2⟩ := C115_at_rest_partial hN hA h hc hr hrs ht hcmd hupd
  have hno : ∀ k, Within P r k → acquiresResources P k ≠ true := by
    intro k hk
    obtain ⟨e1, e2⟩ := hres k hk
    simp [acquiresResources, e1, e2]
  have hroot : s.st r = .finished := by
    rcases h1 with g | ⟨_, c, g1, g2⟩ | ⟨_, g⟩
    · exact g
    · exact absurd g2 (hrep c g1)
    · exact absurd g (hno r (.inl rfl))
  generalize hn : (P.node k).anc.length = n
  induction n generalizing k with
  | zero =>
    have e : (P.node k).anc = [] := List.length_eq_zero_iff.1 hn
    rcases hk with rfl | hk
    · exact hroot
    · rw [e] at hk; cases hk
  | succ n ih =>
    rcases hk with rfl | hk
    · exact hroot
    rcases h2 k hk with g | ⟨_, g⟩ | ⟨_, p, g1, g2⟩
    · exact g
    · exact absurd g (hno k (.inr hk))
    · cases ha : (P.node k).anc with
      | nil => rw [ha] at hn; cases hn
      | cons q l =>
        rw [ha] at g1 hn
        have : q = p := by simpa using g1
        subst this
        obtain ⟨_, _, el⟩ := hA.parent q k l ha
        exact absurd (ih (Within.parent hA hr (.inr hk) ha) (by rw [← el]; simpa using hn)) g2

/-! ## A plan -/

/-- A root list (0) with exit condition "env is 1" and the given Repeat condition; an Empty child (1) that runs until env is 2; an inner list (2)
with an Empty child (3) that never starts and a Command child (4) whose abort is confirmed when env is 1. -/
def leaving (rep : Option Bool) : Plan Int Nat where
  node := fun
    | 0 => { type := .list, children := [1, 2], rhs := fun _ => 0, exit := some fun o => some (o.env == 1), rep := some fun _ => rep }
    | 1 => { type := .empty, anc := [0], rhs := fun _ => 0, endc := some fun o => some (o.env == 2) }
    | 2 => { type := .list, anc := [0], children := [3, 4], rhs := fun _ => 0 }
    | 3 => { type := .empty, anc := [2, 0], rhs := fun _ => 0, start := some fun _ => some false }
    | 4 => { type := .command, anc := [2, 0], rhs := fun _ => 0, endc := some fun _ => some false, abortDone := fun o => some (o.env == 1) }
    | _ => { type := .empty, rhs := fun _ => 0 }
  wake := fun _ _ => [0, 1, 2, 3, 4]

theorem leaving_const (b) (o1 o2 : Obs Int Nat) (k : NodeId) (hk : k ∉ [0, 1, 2, 3, 4]) : conds (leaving b) o1 k = conds (leaving b) o2 k := by
  match k with
  | 0 => simp at hk
  | 1 => simp at hk
  | 2 => simp at hk
  | 3 => simp at hk
  | 4 => simp at hk
  | k + 5 => simp [conds, leaving, ancExit, ancInv, ancEnd, evalC]

theorem leaving_same (b) {o1 o2 : Obs Int Nat} {k : NodeId} (hs : o2.st = o1.st) (hf : o2.fail = o1.fail)
    (h : decideNext (leaving b) o1 k ≠ decideNext (leaving b) o2 k) : k ∈ [0, 1, 2, 3, 4] := by
  refine Classical.byContradiction fun hk => h ?_
  unfold decideNext parentState; rw [leaving_const b o1 o2 k hk, hs, hf]

theorem leaving_notifies (b) : Notifies (leaving b) := by
  constructor
  · intro n o1 om o2 _ _ _ _ k _ hne
    left
    refine Classical.byContradiction fun hk => hne ?_
    unfold decideWith decideNext
    rw [leaving_const b o1 o2 k hk]
  · intro n o1 o2 hw k hne; exact leaving_same b hw.st hw.fail hne
  · intro n o1 o2 hw k hne; exact leaving_same b hw.st hw.fail hne
  · intro n o1 o2 hw _ k hne; exact leaving_same b hw.st hw.fail hne

theorem leaving_tree (b) : PlanTree (leaving b) := by
  refine ⟨?_, ?_, ⟨fun | 0 => 2 | 2 => 1 | _ => 0, ?_⟩⟩
  · intro p c h
    match p with
    | 0 => simp [leaving] at h; rcases h with rfl | rfl <;> rfl
    | 1 => simp [leaving] at h
    | 2 => simp [leaving] at h; rcases h with rfl | rfl <;> rfl
    | 3 => simp [leaving] at h
    | 4 => simp [leaving] at h
    | p + 5 => simp [leaving] at h
  · intro p c l h
    match c with
    | 0 => simp [leaving] at h
    | 1 => simp [leaving] at h; obtain ⟨rfl, rfl⟩ := h; simp [leaving]
    | 2 => simp [leaving] at h; obtain ⟨rfl, rfl⟩ := h; simp [leaving]
    | 3 => simp [leaving] at h; obtain ⟨rfl, rfl⟩ := h; simp [leaving]
    | 4 => simp [leaving] at h; obtain ⟨rfl, rfl⟩ := h; simp [leaving]
    | c + 5 => simp [leaving] at h
  · intro p c h
    match p with
    | 0 => simp [leaving] at h; rcases h with rfl | rfl <;> decide
    | 1 => simp [leaving] at h
    | 2 => simp [leaving] at h; rcases h with rfl | rfl <;> decide
    | 3 => simp [leaving] at h
    | 4 => simp [leaving] at h
    | p + 5 => simp [leaving] at h

theorem leaving_good (b) (s : St Int Nat) (e : Nat) (ns : List NodeId) (h : (ns == [0, 1, 2, 3, 4]) = true) :
    ∀ k, decideNext (leaving b) { s.obs with env := e } k ≠ decideNext (leaving b) s.obs k → k ∈ ns := by
  intro k hk
  have : ns = [0, 1, 2, 3, 4] := by simpa using h
  rw [this]
  exact leaving_same b (o1 := { s.obs with env := e }) (o2 := s.obs) rfl rfl hk

/-- The hypotheses are met: the plan runs, is told to exit, and the theorem says that all of it is FINISHED. -/
example : ∃ s, ReachN (leaving (some false)) .idle s ∧ ToldToExit (leaving (some false)) 0 s.obs ∧
    (∃ L0 L1, s.log = L0 ++ L1 ∧ lastState 1 L0 .inactive = .executing ∧ lastState 4 L0 .inactive = .executing ∧ moves 0 L1 = 3 ∧
      (∀ k a b o, .trans k a b o ∈ L1 → Within (leaving (some false)) 0 k → ToldToExit (leaving (some false)) 0 o)) ∧
    ∀ k, Within (leaving (some false)) 0 k → s.st k = .finished := by
  obtain ⟨ph, s, h, hf⟩ := exists_runN (leaving_good (some false))
    [.cmd (.ext 0 [0, 1, 2, 3, 4]), .macroStep, .cmd (.ext 1 [0, 1, 2, 3, 4]), .macroStep, .macroStep, .macroStep] rfl (fun _ => 0) 0
    (fun x => (x.1, x.2.cand, x.2.env, x.2.st 0, moves 0 (x.2.log.drop 15), lastState 1 (x.2.log.take 15) .inactive,
      lastState 4 (x.2.log.take 15) .inactive, (x.2.log.drop 15).all fun | .trans _ _ _ o => o.env == 1 | _ => true))
    (.idle, [], 1, .finished, 3, .executing, .executing, true) rfl
  simp only [Prod.mk.injEq] at hf
  obtain ⟨rfl, h1, h2, h3, h4, h5, h6, h7⟩ := hf
  have ht : ToldToExit (leaving (some false)) 0 s.obs := ⟨_, rfl, by simp [St.obs, h2]⟩
  refine ⟨s, h, ht, ⟨s.log.take 15, s.log.drop 15, by simp, h5, h6, h4, fun k a b o hm _ => ?_⟩, fun k hk => ?_⟩
  · exact ⟨_, rfl, by simpa using List.all_eq_true.1 h7 _ hm⟩
  refine C115_all_finished_partial (leaving_notifies _) (leaving_tree _) h h1 rfl (by rw [h3]; simp) ht ?_ ?_ ?_ ?_ hk
  · intro k _ _ _
    match k with
    | 4 => simp [leaving, St.obs, h2]
    | 0 | 1 | 2 | 3 => simp_all [leaving]
    | k + 5 => simp_all [leaving]
  · intro k _ ht
    match k with
    | 0 | 1 | 2 | 3 | 4 => simp_all [leaving]
    | k + 5 => simp_all [leaving]
  · intro c hc; simp [leaving] at hc; rw [← hc]; simp
  · intro k _
    match k with
    | 0 | 1 | 2 | 3 | 4 => simp [leaving]
    | k + 5 => simp [leaving]

/-- Finding: the exit condition is not looked at in ITERATION_ENDED, so with a Repeat condition of unknown value a plan told to exit stays there:
nothing is left to check, the root's exit condition is true and the root is not FINISHED. -/
theorem C115_repeat_unknown_refuted : ∃ (P : Plan Int Nat) (s : St Int Nat), Notifies P ∧ PlanTree P ∧ ReachN P .idle s ∧ s.cand = [] ∧
    (P.node 0).anc = [] ∧ ToldToExit P 0 s.obs ∧ s.st 0 = .iterationEnded ∧ decideNext P s.obs 0 = none := by
  obtain ⟨ph, s, h, hf⟩ := exists_runN (leaving_good none)
    [.cmd (.ext 0 [0, 1, 2, 3, 4]), .macroStep, .cmd (.ext 1 [0, 1, 2, 3, 4]), .macroStep, .macroStep, .macroStep] rfl (fun _ => 0) 0
    (fun x => (x.1, x.2.cand, x.2.env, x.2.st 0, decideNext (leaving none) x.2.obs 0)) (.idle, [], 1, .iterationEnded, none) rfl
  simp only [Prod.mk.injEq] at hf
  obtain ⟨rfl, h1, h2, h3, h4⟩ := hf
  exact ⟨leaving none, s, leaving_notifies _, leaving_tree _, h, h1, rfl, ⟨_, rfl, by simp [St.obs, h2]⟩, h3, h4⟩

end Verif.Props.Exit
