import Verif.Props.EpxCommand
/-
C125: OnCommand.
-/
set_option autoImplicit false
set_option linter.unusedSimpArgs false
namespace Verif.Props.Epx
open Verif.Node Verif.Exec Verif.Epx Verif.Props.Sync
open Verif.Text (Handle)

variable {Val Env : Type} {P : Plan Val Env}

section on
variable {p : NodeId} {d : NodeDef Val Env} {wait : Query Val Env} {params : List (Query Val Env)} {act : NodeId × NodeDef Val Env} {reply : Option (NodeId × NodeDef Val Env)}

/-- The nodes of an OnCommand, in order: waiting for the command, one per parameter, the action, the reply. -/
def onCommandKids (wait : Query Val Env) (params : List (Query Val Env)) (act : NodeId × NodeDef Val Env) (reply : Option (NodeId × NodeDef Val Env)) : List NodeId :=
  wait.node :: params.map (·.node) ++ act.1 :: reply.toList.map Prod.fst

theorem on_top (hc : Contains P (onCommand p d wait params act reply)) : P.node p =
    { d with type := .list, children := onCommandKids wait params act reply, inv := successInvariant (onCommandKids wait params act reply) d.inv } :=
  hc (p, _) (by simp [onCommand, onCommandKids])

theorem on_wait (hc : Contains P (onCommand p d wait params act reply)) : P.node wait.node = wait.def (p :: d.anc) none :=
  hc (wait.node, wait.def (p :: d.anc) none) (by
    unfold onCommand
    exact List.mem_cons_of_mem _ (List.mem_cons_self ..))

theorem on_param (hc : Contains P (onCommand p d wait params act reply)) {q : Query Val Env} (hq : q ∈ params) :
    P.node q.node = q.def (p :: d.anc) (some fun o => some (wait.known o)) :=
  hc (q.node, _) (by
    unfold onCommand
    refine List.mem_cons_of_mem _ (List.mem_cons_of_mem _ (List.mem_append_left _ ?_))
    exact List.mem_map.2 ⟨q, hq, rfl⟩)

theorem on_act (hc : Contains P (onCommand p d wait params act reply)) : P.node act.1 = { act.2 with start := some (onCommandStart wait params) } :=
  hc (act.1, { act.2 with start := some (onCommandStart wait params) }) (by
    unfold onCommand
    exact List.mem_append_right _ (List.mem_cons_self ..))

theorem on_reply (hc : Contains P (onCommand p d wait params act reply)) {r : NodeId × NodeDef Val Env} (hr : reply = some r) :
    P.node r.1 = { r.2 with start := some (nodeFinished act.1) } :=
  hc (r.1, { r.2 with start := some (nodeFinished act.1) }) (by
    subst hr
    unfold onCommand
    exact List.mem_append_right _ (List.mem_cons_of_mem _ (List.mem_cons_self ..)))

theorem on_watched (hc : Contains P (onCommand p d wait params act reply)) : Watched P p (onCommandKids wait params act reply) := by
  refine ⟨by rw [on_top hc], by rw [on_top hc], fun o k hk hf => ?_⟩
  have hn : noChildFailed (onCommandKids wait params act reply) o = some false := noChildFailed_iff.2 ⟨k, hk, by simpa [nodeFailed] using hf⟩
  rw [on_top hc]
  simp only [successInvariant]
  cases d.inv with
  | none => exact ⟨_, rfl, hn⟩
  | some c =>
    refine ⟨_, rfl, ?_⟩
    simp only [hn]
    rcases c o with _ | _ | _ <;> rfl

theorem andAll_true {l : List (Option Bool)} : andAll l = some true ↔ ∀ x ∈ l, x = some true := by
  induction l with
  | nil => simp [andAll]
  | cons a l ih =>
    rw [show andAll (a :: l) = and3 a (andAll l) from rfl]
    simp only [List.forall_mem_cons, ← ih]
    rcases a with _ | _ | _ <;> rcases andAll l with _ | _ | _ <;> simp [and3]

theorem onCommandStart_true {o : Obs Val Env} : onCommandStart wait params o = some true ↔
    (params = [] → wait.known o = true) ∧ ∀ q ∈ params, nodeSucceeded q.node o = some true := by
  match params with
  | [] => simp [onCommandStart]
  | [q] => simp [onCommandStart]
  | q1 :: q2 :: qs => simp [onCommandStart, andAll_true]

end on

/-- C125: order. In an OnCommand the parameters are fetched only once the command is there; the action starts only when all parameters have been fetched successfully (and the command is there, if it has no
parameters); the reply is sent only after the action is FINISHED; and none of these starts when one of them has Failed. -/
theorem C125_order (hN : Notifies P) (hA : PlanTree P) {ph : Phase} {s : St Val Env} (h : ReachN P ph s) {p : NodeId} {d : NodeDef Val Env} {wait : Query Val Env} {params : List (Query Val Env)}
    {act : NodeId × NodeDef Val Env} {reply : Option (NodeId × NodeDef Val Env)} (hc : Contains P (onCommand p d wait params act reply)) {n x o}
    (he : .trans n .waiting x o ∈ s.log) (hx : x = .executing ∨ x = .iterationEnded) :
    (∀ q ∈ params, n = q.node → wait.known o = true) ∧
    (n = act.1 → (∀ q ∈ params, nodeSucceeded q.node o = some true) ∧ (params = [] → wait.known o = true)) ∧
    (∀ r, reply = some r → n = r.1 → nodeFinished act.1 o = some true) ∧
    (n ∈ onCommandKids wait params act reply → ∀ k ∈ onCommandKids wait params act reply, nodeFailed k o = some false) := by
  have hm := start_event hN hA h he hx
  refine ⟨?_, ?_, ?_, fun hn k hk => (on_watched hc).no_start hN hA h hn hk he hx⟩
  · rintro q hq rfl
    have := hm.2.2.2 (fun o => some (wait.known o)) (by rw [on_param hc hq]; rfl)
    simpa using this
  · rintro rfl
    have := hm.2.2.2 (onCommandStart wait params) (by rw [on_act hc])
    exact (onCommandStart_true.1 this).symm
  · rintro r hr rfl
    exact hm.2.2.2 (nodeFinished act.1) (by rw [on_reply hc hr])

/-- C125: if an OnCommand without EndCondition of its own Succeeded, all its nodes are FINISHED and none Failed; when one of them has Failed it is neither EXECUTING nor FINISHING once nothing is left to
check, and leaves these states for FAILING. -/
theorem C125_success (hN : Notifies P) (hA : PlanTree P) {p : NodeId} {d : NodeDef Val Env} {wait : Query Val Env} {params : List (Query Val Env)}
    {act : NodeId × NodeDef Val Env} {reply : Option (NodeId × NodeDef Val Env)} (hc : Contains P (onCommand p d wait params act reply)) :
    (∀ ph s, ReachN P ph s → ph ≠ .trans → d.endc = none → nodeSucceeded p s.obs = some true →
      ∀ k ∈ onCommandKids wait params act reply, nodeFinished k s.obs = some true ∧ nodeFailed k s.obs = some false) ∧
    (∀ s, ReachN P .idle s → s.cand = [] → ∀ k ∈ onCommandKids wait params act reply, nodeFailed k s.obs = some true → s.st p ≠ .executing ∧ s.st p ≠ .finishing) ∧
    (∀ ph s, ReachN P ph s → ∀ k ∈ onCommandKids wait params act reply, ∀ a b o, .trans p a b o ∈ s.log → nodeFailed k o = some true → a = .executing ∨ a = .finishing → b = .failing) :=
  ⟨fun _ _ h hph he hs => (on_watched hc).success hN hA h hph (by rw [on_top hc]; exact he) hs,
    fun s h hr _ hk => ((on_watched hc).fails hN hA hk).1 s h hr,
    fun ph s h _ hk => ((on_watched hc).fails hN hA hk).2 ph s h⟩

theorem query_end {o : Obs Val Env} {q : Query Val Env} {anc : List NodeId} {start : UCond Val Env} (hn : P.node q.node = q.def anc start) :
    notT (conds P o q.node).endc = false ↔ q.known o = true ∨ q.handle o = .denied ∨ q.handle o = .failed ∨ q.handle o = .interfaceError := by
  simp only [conds, hn, Query.def, notT, handleIsFinal]
  cases q.known o <;> cases q.handle o <;> simp [or3]

/-- What a node that waits for a value from the interface does. -/
theorem query_spec (hN : Notifies P) (hA : PlanTree P) {q : Query Val Env} {anc : List NodeId} {start : UCond Val Env} (hn : P.node q.node = q.def anc start) :
    (∀ ph s, ReachN P ph s → ∀ x o, .trans q.node .executing x o ∈ s.log →
      ToldToStop P o q.node ∨ q.known o = true ∨ q.handle o = .denied ∨ q.handle o = .failed ∨ q.handle o = .interfaceError) ∧
    (∀ s, ReachN P .idle s → s.cand = [] → s.st q.node = .executing →
      q.known s.obs = false ∧ q.handle s.obs ≠ .denied ∧ q.handle s.obs ≠ .failed ∧ q.handle s.obs ≠ .interfaceError) ∧
    (∀ ph s, ReachN P ph s → ph ≠ .trans → nodeSucceeded q.node s.obs = some true →
      ∃ L0 a o L1, transitions s.log = L0 ++ .trans q.node a .iterationEnded o :: L1 ∧ (∀ b o', .trans q.node b .iterationEnded o' ∉ L1) ∧ q.handle o = .success) := by
  have ht : (P.node q.node).type = .command := by rw [hn]; rfl
  refine ⟨fun ph s h x o he => ?_, fun s h hr hex => ?_, fun ph s h hph hs => ?_⟩
  · obtain ⟨h1, e, h2, rfl⟩ := event_decided hN hA h he
    rcases command_executing ht h1 with ⟨g, e', g1, g2⟩ | ⟨_, _, ⟨g, _⟩ | ⟨_, g⟩⟩
    · left
      rcases g with g | ⟨_, g, _⟩ | g | ⟨_, g, _⟩
      · exact told_iff.2 (.inl g)
      · rw [hn] at g; cases g
      · exact told_iff.2 (.inr (.inl g))
      · rw [hn] at g; cases g
    · exact .inr ((query_end hn).1 g)
    · rw [h2] at g; cases g
  · have hd := at_rest hN hA h hr (n := q.node) (fun _ => by rw [hex]; simp) (fun e => by rw [hex] at e; cases e)
    rcases command_executing (o := s.obs) ht hex with ⟨_, _, g, _⟩ | ⟨_, _, ⟨_, _, g, _⟩ | ⟨g, _⟩⟩
    · rw [g] at hd; cases hd
    · rw [g] at hd; cases hd
    · have : ¬ (notT (conds P s.obs q.node).endc = false) := by rw [g]; simp
      rw [query_end hn] at this
      simpa [not_or] using this
  · obtain ⟨L0, a, o, L1, h1, h2, h3⟩ := C116_succeeded hN hA.tree h hph hs
    refine ⟨L0, a, o, L1, h1, h2, ?_⟩
    have := h3 (handleIs q.handle .success) (by rw [hn]; rfl)
    revert this
    simp only [handleIs]
    cases q.handle o <;> simp

/-- C125: waiting for a command, and fetching a parameter, end (unless told to stop) only when the variable has a value or the interface reports a failure, and do not keep waiting when this is so; they
Succeed only if the interface reported success by then. -/
theorem C125_query (hN : Notifies P) (hA : PlanTree P) {p : NodeId} {d : NodeDef Val Env} {wait : Query Val Env} {params : List (Query Val Env)}
    {act : NodeId × NodeDef Val Env} {reply : Option (NodeId × NodeDef Val Env)} (hc : Contains P (onCommand p d wait params act reply)) {q : Query Val Env} (hq : q ∈ wait :: params) :
    (∀ ph s, ReachN P ph s → ∀ x o, .trans q.node .executing x o ∈ s.log →
      ToldToStop P o q.node ∨ q.known o = true ∨ q.handle o = .denied ∨ q.handle o = .failed ∨ q.handle o = .interfaceError) ∧
    (∀ s, ReachN P .idle s → s.cand = [] → s.st q.node = .executing →
      q.known s.obs = false ∧ q.handle s.obs ≠ .denied ∧ q.handle s.obs ≠ .failed ∧ q.handle s.obs ≠ .interfaceError) ∧
    (∀ ph s, ReachN P ph s → ph ≠ .trans → nodeSucceeded q.node s.obs = some true →
      ∃ L0 a o L1, transitions s.log = L0 ++ .trans q.node a .iterationEnded o :: L1 ∧ (∀ b o', .trans q.node b .iterationEnded o' ∉ L1) ∧ q.handle o = .success) := by
  obtain ⟨start, hn⟩ : ∃ start, P.node q.node = q.def (p :: d.anc) start := by
    rcases List.mem_cons.1 hq with rfl | hq
    · exact ⟨_, on_wait hc⟩
    · exact ⟨_, on_param hc hq⟩
  exact query_spec hN hA hn

/-- C125: an OnCommand does not get stuck. When nothing is left to check and an OnCommand without EndCondition of its own is EXECUTING: one of its nodes is active; or the command has not come; or one of its
nodes is waiting for a mutex or variable; or fetching a parameter was called off (Skipped or interrupted, as happens when an enclosing node ends). -/
theorem C125_progress (hN : Notifies P) (hA : PlanTree P) {s : St Val Env} (h : ReachN P .idle s) (hr : s.cand = []) {p : NodeId} {d : NodeDef Val Env} {wait : Query Val Env}
    {params : List (Query Val Env)} {act : NodeId × NodeDef Val Env} {reply : Option (NodeId × NodeDef Val Env)} (hc : Contains P (onCommand p d wait params act reply)) (hend : d.endc = none)
    (hex : s.st p = .executing) :
    (∃ k ∈ onCommandKids wait params act reply, Active (s.st k) ∨ (s.st k = .waiting ∧ acquiresResources P k = true)) ∨ wait.known s.obs = false ∨
    ∃ q ∈ params, nodeFinished q.node s.obs = some true ∧ nodeSucceeded q.node s.obs = some false ∧ nodeFailed q.node s.obs = some false := by
  refine Classical.byContradiction fun hno => ?_
  simp only [not_or, not_exists, not_and] at hno
  obtain ⟨h1, h2, h3⟩ := hno
  have hkn : wait.known s.obs = true := by simpa using h2
  have hW := on_watched hc
  have hanc : ∀ k ∈ onCommandKids wait params act reply, (P.node k).anc = p :: (P.node p).anc := fun k hk => hA.child p k (by rw [hW.sub]; exact hk)
  have hni : ∀ k ∈ onCommandKids wait params act reply, s.st k ≠ .inactive := by
    intro k hk hi
    have := at_rest hN hA h hr (n := k) (fun e => by rw [hanc k hk] at e; cases e) (fun e => by rw [hi] at e; cases e)
    rw [decide_inactive (hanc k hk) hi, if_neg (by show s.st p ≠ _; rw [hex]; simp), if_pos (show s.obs.st p = .executing from hex)] at this
    split at this <;> cases this
  have key : ∀ k ∈ onCommandKids wait params act reply, (∀ f, (P.node k).start = some f → f s.obs = some true) → s.st k = .finished := by
    intro k hk hst
    refine Classical.byContradiction fun hf => ?_
    by_cases hw : s.st k = .waiting
    · have hres : acquiresResources P k = false := by
        have := (h1 k hk).2 hw
        simpa using this
      have := at_rest hN hA h hr (n := k) (fun e => by rw [hanc k hk] at e; cases e) (fun _ => hres)
      rcases decide_waiting (P := P) (o := s.obs) hw with ⟨_, g⟩ | ⟨_, _, _, ⟨⟨f, g1, g2⟩, _⟩ | ⟨_, ⟨_, g⟩ | ⟨_, g⟩⟩⟩
      · rw [g] at this; cases this
      · exact g2 (hst f g1)
      · rw [g] at this; cases this
      · rw [g] at this; cases this
    · exact (h1 k hk).1 ⟨hni k hk, hw, hf⟩
  have hwait := key wait.node (by simp [onCommandKids]) (by rw [on_wait hc]; simp [Query.def])
  have hparam : ∀ q ∈ params, s.st q.node = .finished := fun q hq => key q.node (by simp [onCommandKids, hq]; exact .inr (.inl ⟨q, hq, rfl⟩)) (by
    rw [on_param hc hq]; simp [Query.def, hkn])
  have hnf : ∀ k ∈ onCommandKids wait params act reply, nodeFailed k s.obs = some false := by
    intro k hk
    have := (C125_success hN hA hc).2.1 s h hr k hk
    cases hf : nodeFailed k s.obs with
    | none => simp [nodeFailed] at hf
    | some v => cases v with
      | false => rfl
      | true => exact absurd hex (this hf).1
  have hsucc : ∀ q ∈ params, nodeSucceeded q.node s.obs = some true := by
    intro q hq
    have hk : q.node ∈ onCommandKids wait params act reply := by simp [onCommandKids]; exact .inr (.inl ⟨q, hq, rfl⟩)
    have := h3 q hq (nodeFinished_iff.2 (hparam q hq))
    cases hs : nodeSucceeded q.node s.obs with
    | none => simp [nodeSucceeded] at hs
    | some v => cases v with
      | true => rfl
      | false => exact absurd (hnf _ hk) (this hs)
  have hact : s.st act.1 = .finished := key act.1 (by simp [onCommandKids]) (by
    rw [on_act hc]
    rintro f e
    cases e
    exact onCommandStart_true.2 ⟨fun _ => hkn, hsucc⟩)
  have hall : ∀ k ∈ onCommandKids wait params act reply, s.st k = .finished := by
    intro k hk
    simp only [onCommandKids, List.mem_append, List.mem_cons, List.mem_map] at hk
    rcases hk with (rfl | ⟨q, hq, rfl⟩) | rfl | ⟨r, hr', rfl⟩
    · exact hwait
    · exact hparam q hq
    · exact hact
    · have hr'' : reply = some r := by simpa using hr'
      refine key r.1 (by simp [onCommandKids, hr'']) ?_
      rw [on_reply hc hr'']
      rintro f e
      cases e
      exact nodeFinished_iff.2 hact
  have hdp := at_rest hN hA h hr (n := p) (fun _ => by rw [hex]; simp) (fun e => by rw [hex] at e; cases e)
  have hne := (list_executing_none hW.type hex hdp).2.2.2.2
  have : (conds P s.obs p).endc = some (some true) := by
    have hf : allFinished s.obs (onCommandKids wait params act reply) = true := by
      unfold allFinished; rw [List.all_eq_true]; intro k hk; simpa [St.obs] using hall k hk
    simp [conds, on_top hc, hend, hf]
  rw [this] at hne; cases hne

/-! ## An OnCommand -/

set_option maxRecDepth 10000

/-- An OnCommand (0): the command comes (1) with env 1 or more, has one parameter (2) that comes with env 3 or more; action (3) and reply (4). The interface reports success with env 2 for the command, and with
env 3 for the parameter; before that it reports that the requests were sent. (`on-command.xsl:59-182`.) -/
def served : Block Int Nat :=
  onCommand 0 (plain []) ⟨1, fun o => if o.env ≥ 2 then .success else .sent, fun o => decide (o.env ≥ 1), fun _ => some true, fun _ => 0⟩
    [⟨2, fun o => if o.env ≥ 3 then .success else .sent, fun o => decide (o.env ≥ 3), fun _ => some true, fun _ => 0⟩] (3, plain [0])
    (some (4, { type := .command, anc := [0], rhs := fun _ => 0, handleKnown := fun o => some (decide (o.env ≥ 3)) }))

theorem served_contains : Contains (planOf served) served := planOf_contains (by decide) fun _ h => h

theorem served_tree : PlanTree (planOf served) := planOf_tree (top := 4) rfl

/-- The hypotheses of the theorems are met: the command comes, together with the report of success, then the parameter; the action runs, the reply is sent, the OnCommand Succeeds. -/
example : ∃ s, ReachN (planOf served) .idle s ∧ nodeSucceeded 0 s.obs = some true ∧ (∃ o, .trans 3 .waiting .executing o ∈ s.log) ∧ ∃ o, .trans 4 .waiting .executing o ∈ s.log := by
  obtain ⟨ph, s, h, hf⟩ := exists_runN (planOf_good served)
    [.cmd (.ext 0 [0, 1, 2, 3, 4]), .macroStep, .cmd (.ext 2 [0, 1, 2, 3, 4]), .macroStep, .macroStep, .cmd (.ext 3 [0, 1, 2, 3, 4]), .macroStep, .macroStep, .macroStep, .macroStep] rfl (fun _ => 0) 0
    (fun x => (x.1, nodeSucceeded 0 x.2.obs, x.2.log.any (goesAt 3 .waiting .executing), x.2.log.any (goesAt 4 .waiting .executing))) (.idle, some true, true, true) rfl
  simp only [Prod.mk.injEq] at hf
  obtain ⟨rfl, h1, h2, h3⟩ := hf
  exact ⟨s, h, h1, goes_mem h2, goes_mem h3⟩

/-- The hypotheses of `C125_progress` are met while the command has not come. -/
example : ∃ s, ReachN (planOf served) .idle s ∧ s.cand = [] ∧ s.st 0 = .executing ∧ s.st 1 = .executing := by
  obtain ⟨ph, s, h, hf⟩ := exists_runN (planOf_good served) [.cmd (.ext 0 [0, 1, 2, 3, 4]), .macroStep, .macroStep] rfl (fun _ => 0) 0
    (fun x => (x.1, x.2.cand, x.2.st 0, x.2.st 1)) (.idle, [], .executing, .executing) rfl
  simp only [Prod.mk.injEq] at hf
  obtain ⟨rfl, h1, h2, h3⟩ := hf
  exact ⟨s, h, h1, h2, h3⟩

/-- C125: an OnCommand Fails although its command has come and the interface reports success, if the executive looks at the command after it came and before the report: the command's arrival ends the wait, and the
PostCondition is looked at right then. (`on-command.xsl:190-202`; the adapters report the value first, and success in a message of its own.) -/
theorem C125_early_refuted : Notifies (planOf served) ∧ PlanTree (planOf served) ∧ Contains (planOf served) served ∧ ∃ s, ReachN (planOf served) .idle s ∧ s.cand = [] ∧ s.obs.env = 2 ∧
    nodePostconditionFailed 1 s.obs = some true ∧ nodeFailed 0 s.obs = some true ∧ ¬ Started 3 s.log := by
  refine ⟨planOf_notifies _, served_tree, served_contains, ?_⟩
  obtain ⟨ph, s, h, hf⟩ := exists_runN (planOf_good served)
    [.cmd (.ext 0 [0, 1, 2, 3, 4]), .macroStep, .macroStep, .cmd (.ext 1 [0, 1, 2, 3, 4]), .macroStep, .macroStep, .macroStep, .cmd (.ext 2 [0, 1, 2, 3, 4]), .macroStep, .macroStep, .macroStep, .macroStep] rfl (fun _ => 0) 0
    (fun x => (x.1, x.2.cand, x.2.obs.env, nodePostconditionFailed 1 x.2.obs, nodeFailed 0 x.2.obs, startedCheck 3 x.2.log)) (.idle, [], 2, some true, some true, false) rfl
  simp only [Prod.mk.injEq] at hf
  obtain ⟨rfl, h1, h2, h3, h4, h5⟩ := hf
  exact ⟨s, h, h1, h2, h3, h4, fun g => (by rw [startedCheck_iff.2 g] at h5; cases h5)⟩

end Verif.Props.Epx
