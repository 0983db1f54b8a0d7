import Verif.Props.EpxOnCommand
/-
C137: OnMessage.
-/
set_option autoImplicit false
set_option linter.unusedSimpArgs false
namespace Verif.Props.Epx
open Verif.Node Verif.Exec Verif.Epx Verif.Props.Sync
open Verif.Text (Handle)

variable {Val Env : Type} {P : Plan Val Env}

section on
variable {p : NodeId} {d : NodeDef Val Env} {parent : Option NodeId} {wait : Query Val Env} {body : Option (NodeId × NodeDef Val Env)}

/-- The nodes of an OnMessage, in order: waiting for the message, the body. (`on-message.xsl:95-105`.) -/
def onMessageKids (wait : Query Val Env) (body : Option (NodeId × NodeDef Val Env)) : List NodeId := wait.node :: body.toList.map Prod.fst

theorem onm_wait (hc : Contains P (onMessage p d parent wait body)) : P.node wait.node = wait.def (p :: d.anc) none :=
  hc (wait.node, wait.def (p :: d.anc) none) (by simp [onMessage, checkedSequence, linkChildren, linkage])

theorem onm_top (hc : Contains P (onMessage p d parent wait body)) : (P.node p).type = .list ∧ (P.node p).inv = successInvariant (onMessageKids wait body) (parent.map nodeExecuting) := by
  rw [hc (p, _) (by unfold onMessage checkedSequence; exact List.mem_cons_self)]
  exact ⟨rfl, rfl⟩

end on

/-- C137: order. The body of an OnMessage starts, or has its PreCondition checked, only when the wait for the message is FINISHED and did not Fail. -/
theorem C137_order (hN : Notifies P) (hA : PlanTree P) {ph : Phase} {s : St Val Env} (h : ReachN P ph s) {p : NodeId} {d : NodeDef Val Env} {parent : Option NodeId} {wait : Query Val Env}
    {b : NodeId × NodeDef Val Env} (hc : Contains P (onMessage p d parent wait (some b))) {x o}
    (he : .trans b.1 .waiting x o ∈ s.log) (hx : x = .executing ∨ x = .iterationEnded) : nodeFinished wait.node o = some true ∧ nodeFailed wait.node o = some false :=
  ⟨C117_after_predecessor hN hA h (l1 := []) (a := (wait.node, wait.def (p :: d.anc) none)) (b := b) (l2 := []) (.inr hc) rfl he hx,
    C118_no_start hN hA h hc (by simp) (by simp) he hx⟩

/-- C137: the wait for the message ends (unless told to stop) only when the message has come or the interface reports a failure, and does not go on when this is so; it Succeeds only if the interface reported success by then. -/
theorem C137_receive (hN : Notifies P) (hA : PlanTree P) {p : NodeId} {d : NodeDef Val Env} {parent : Option NodeId} {wait : Query Val Env} {body : Option (NodeId × NodeDef Val Env)}
    (hc : Contains P (onMessage p d parent wait body)) :
    (∀ ph s, ReachN P ph s → ∀ x o, .trans wait.node .executing x o ∈ s.log →
      ToldToStop P o wait.node ∨ wait.known o = true ∨ wait.handle o = .denied ∨ wait.handle o = .failed ∨ wait.handle o = .interfaceError) ∧
    (∀ s, ReachN P .idle s → s.cand = [] → s.st wait.node = .executing →
      wait.known s.obs = false ∧ wait.handle s.obs ≠ .denied ∧ wait.handle s.obs ≠ .failed ∧ wait.handle s.obs ≠ .interfaceError) ∧
    (∀ ph s, ReachN P ph s → ph ≠ .trans → nodeSucceeded wait.node s.obs = some true →
      ∃ L0 a o L1, transitions s.log = L0 ++ .trans wait.node a .iterationEnded o :: L1 ∧ (∀ b o', .trans wait.node b .iterationEnded o' ∉ L1) ∧ wait.handle o = .success) :=
  query_spec hN hA (onm_wait hc)

/-- C137: an OnMessage that Succeeded has waited and run its body, and neither Failed; when one of them has Failed it is neither EXECUTING nor FINISHING once nothing is left to check, and leaves these states for FAILING. -/
theorem C137_success (hN : Notifies P) (hA : PlanTree P) {p : NodeId} {d : NodeDef Val Env} {parent : Option NodeId} {wait : Query Val Env} {body : Option (NodeId × NodeDef Val Env)}
    (hc : Contains P (onMessage p d parent wait body)) :
    (∀ ph s, ReachN P ph s → ph ≠ .trans → nodeSucceeded p s.obs = some true → ∀ k ∈ onMessageKids wait body, nodeFinished k s.obs = some true ∧ nodeFailed k s.obs = some false) ∧
    (∀ s, ReachN P .idle s → s.cand = [] → ∀ k ∈ onMessageKids wait body, nodeFailed k s.obs = some true → s.st p ≠ .executing ∧ s.st p ≠ .finishing) ∧
    (∀ ph s, ReachN P ph s → ∀ k ∈ onMessageKids wait body, ∀ a b o, .trans p a b o ∈ s.log → nodeFailed k o = some true → a = .executing ∨ a = .finishing → b = .failing) :=
  ⟨fun _ _ h hph hs => C118_success hN hA h hph hc rfl hs, fun s h hr _ hk => (C118_fails hN hA hc hk).1 s h hr, fun ph s h _ hk => (C118_fails hN hA hc hk).2 ph s h⟩

/-- C137: an OnMessage does not outlive its parent's execution. If the element around it has a NodeId: when that node is not EXECUTING the OnMessage is neither EXECUTING nor FINISHING once nothing is left to check, and leaves these
states for FAILING. -/
theorem C137_parent (hN : Notifies P) (hA : PlanTree P) {p a : NodeId} {d : NodeDef Val Env} {wait : Query Val Env} {body : Option (NodeId × NodeDef Val Env)}
    (hc : Contains P (onMessage p d (some a) wait body)) :
    (∀ s, ReachN P .idle s → s.cand = [] → s.st a ≠ .executing → s.st p ≠ .executing ∧ s.st p ≠ .finishing) ∧
    (∀ ph s, ReachN P ph s → ∀ x y o, .trans p x y o ∈ s.log → o.st a ≠ .executing → x = .executing ∨ x = .finishing → y = .failing) := by
  have key : ∀ o : Obs Val Env, o.st a ≠ .executing → o.st p = .executing ∨ o.st p = .finishing → ∃ e, decideNext P o p = some e ∧ e.state = .failing := by
    intro o hf hst
    have hi : isF (conds P o p).inv = true := by
      refine isF_says.2 ?_
      rw [(onm_top hc).2]
      refine ⟨_, rfl, ?_⟩
      have : nodeExecuting a o = some false := by simp [nodeExecuting, hf]
      rw [this]
      rcases noChildFailed (onMessageKids wait body) o with _ | _ | _ <;> rfl
    unfold decideNext
    rw [(onm_top hc).1]
    revert hi
    generalize conds P o p = c
    intro hi
    rcases hst with e | e <;> rw [e] <;> simp only [getDest, fromExecuting, fromFinishing, abnormal, hi] <;>
      cases isT c.ancExit <;> cases isT c.exit <;> cases isF c.ancInv <;> simp
  refine ⟨fun s h hr hf => ?_, fun ph s h x y o he hf hx => ?_⟩
  · have : ¬ (s.st p = .executing ∨ s.st p = .finishing) := by
      intro hst
      obtain ⟨e, he, _⟩ := key s.obs hf hst
      have := at_rest hN hA h hr (n := p) (fun _ => by rcases hst with e | e <;> rw [e] <;> simp)
        (fun e => by rcases hst with e' | e' <;> rw [e] at e' <;> cases e')
      rw [this] at he; cases he
    exact ⟨fun e => this (.inl e), fun e => this (.inr e)⟩
  · obtain ⟨h1, e, h2, rfl⟩ := event_decided hN hA h he
    obtain ⟨e', g1, g2⟩ := key o hf (by rw [h1]; exact hx)
    rw [h2] at g1; cases g1; exact g2

/-- C137: an OnMessage does not get stuck. When nothing is left to check and it is EXECUTING, then it is waiting for the message, or going to; or the wait is over and the body is active, or waiting for its StartCondition, a mutex or variable. -/
theorem C137_progress (hN : Notifies P) (hA : PlanTree P) {s : St Val Env} (h : ReachN P .idle s) (hr : s.cand = []) {p : NodeId} {d : NodeDef Val Env} {parent : Option NodeId} {wait : Query Val Env}
    {body : Option (NodeId × NodeDef Val Env)} (hc : Contains P (onMessage p d parent wait body)) (hex : s.st p = .executing) :
    (nodeFinished wait.node s.obs = some false ∧ Active (s.st wait.node)) ∨
    ∃ b, body = some b ∧ nodeFinished wait.node s.obs = some true ∧ nodeFinished b.1 s.obs = some false ∧
      (Active (s.st b.1) ∨ (s.st b.1 = .waiting ∧ ((∃ f, b.2.start = some f ∧ f s.obs ≠ some true) ∨ acquiresResources P b.1 = true))) := by
  obtain ⟨l1, b, l2, e, h1, h2, h3⟩ := C117_progress hN hA h hr (.inr hc) rfl hex
  cases l1 with
  | nil =>
    simp only [List.nil_append, List.cons.injEq] at e
    obtain ⟨rfl, _⟩ := e
    refine .inl ⟨h2, ?_⟩
    rcases h3 with h3 | ⟨_, ⟨f, g, _⟩ | g⟩
    · exact h3
    · simp [Query.def] at g
    · simp [acquiresResources, onm_wait hc, Query.def] at g
  | cons x l1 =>
    simp only [List.cons_append, List.cons.injEq] at e
    obtain ⟨rfl, e⟩ := e
    cases body with
    | none => simp at e
    | some c =>
      cases l1 with
      | nil =>
        simp at e
        obtain ⟨rfl, _⟩ := e
        exact .inr ⟨c, rfl, h1 (wait.node, wait.def (p :: d.anc) none) (by simp), h2, h3⟩
      | cons y l1 => simp at e

/-! ## An OnMessage -/

set_option maxRecDepth 10000

/-- An OnMessage (1) in a list (0): the message comes (2) with env 1 or more; body (3). The interface reports success with env 2. The author wrote a StartCondition that is never true. (`on-message.xsl:41-147`.) -/
def told : Block Int Nat :=
  (0, { plain [] with type := .list, children := [1] }) ::
  onMessage 1 { plain [0] with start := some fun _ => some false } (some 0) ⟨2, fun o => if o.env ≥ 2 then .success else .sent, fun o => decide (o.env ≥ 1), fun _ => some true, fun _ => 0⟩ (some (3, plain [1, 0]))

theorem told_contains : Contains (planOf told) (onMessage 1 { plain [0] with start := some fun _ => some false } (some 0)
    ⟨2, fun o => if o.env ≥ 2 then .success else .sent, fun o => decide (o.env ≥ 1), fun _ => some true, fun _ => 0⟩ (some (3, plain [1, 0]))) :=
  planOf_contains (by decide) fun _ h => List.mem_cons_of_mem _ h

theorem told_tree : PlanTree (planOf told) := planOf_tree (top := 3) rfl

/-- The hypotheses of the theorems are met: the message comes, together with the report of success, the body runs, the OnMessage Succeeds.

**C137 is false of the conditions the author gives**: the OnMessage starts, and Succeeds, although its StartCondition is never true: conditions are not copied (`on-message.xsl:66-107`). -/
theorem C137_conditions_refuted : Notifies (planOf told) ∧ PlanTree (planOf told) ∧ ∃ s, ReachN (planOf told) .idle s ∧ nodeSucceeded 1 s.obs = some true ∧ (∃ o, .trans 3 .waiting .executing o ∈ s.log) := by
  refine ⟨planOf_notifies _, told_tree, ?_⟩
  obtain ⟨ph, s, h, hf⟩ := exists_runN (planOf_good told)
    [.cmd (.ext 0 [0, 1, 2, 3]), .macroStep, .macroStep, .cmd (.ext 2 [0, 1, 2, 3]), .macroStep, .macroStep, .macroStep] rfl (fun _ => 0) 0
    (fun x => (x.1, nodeSucceeded 1 x.2.obs, x.2.log.any (goesAt 3 .waiting .executing))) (.idle, some true, true) rfl
  simp only [Prod.mk.injEq] at hf
  obtain ⟨rfl, h1, h2⟩ := hf
  exact ⟨s, h, h1, goes_mem h2⟩

/-- The hypotheses of `C137_progress` are met while the message has not come. -/
example : ∃ s, ReachN (planOf told) .idle s ∧ s.cand = [] ∧ s.st 1 = .executing ∧ s.st 2 = .executing := by
  obtain ⟨ph, s, h, hf⟩ := exists_runN (planOf_good told) [.cmd (.ext 0 [0, 1, 2, 3]), .macroStep, .macroStep] rfl (fun _ => 0) 0
    (fun x => (x.1, x.2.cand, x.2.st 1, x.2.st 2)) (.idle, [], .executing, .executing) rfl
  simp only [Prod.mk.injEq] at hf
  obtain ⟨rfl, h1, h2, h3⟩ := hf
  exact ⟨s, h, h1, h2, h3⟩

/-- C137: an OnMessage Fails although its message has come and the interface reports success, if the executive looks at the message after it came and before the report: see `C125_early_refuted`. (`on-message.xsl:118-131`.) -/
theorem C137_early_refuted : ∃ s, ReachN (planOf told) .idle s ∧ s.cand = [] ∧ s.obs.env = 2 ∧
    nodePostconditionFailed 2 s.obs = some true ∧ nodeFailed 1 s.obs = some true ∧ ¬ Started 3 s.log := by
  obtain ⟨ph, s, h, hf⟩ := exists_runN (planOf_good told)
    [.cmd (.ext 0 [0, 1, 2, 3]), .macroStep, .macroStep, .cmd (.ext 1 [0, 1, 2, 3]), .macroStep, .macroStep, .macroStep, .cmd (.ext 2 [0, 1, 2, 3]), .macroStep, .macroStep, .macroStep, .macroStep] rfl (fun _ => 0) 0
    (fun x => (x.1, x.2.cand, x.2.obs.env, nodePostconditionFailed 2 x.2.obs, nodeFailed 1 x.2.obs, startedCheck 3 x.2.log)) (.idle, [], 2, some true, some true, false) rfl
  simp only [Prod.mk.injEq] at hf
  obtain ⟨rfl, h1, h2, h3, h4, h5⟩ := hf
  exact ⟨s, h, h1, h2, h3, h4, fun g => (by rw [startedCheck_iff.2 g] at h5; cases h5)⟩

end Verif.Props.Epx
