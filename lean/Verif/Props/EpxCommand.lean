import Verif.Epx.CommandModel
import Verif.Props.EpxLoop
/-
C124: SynchronousCommand.
-/
set_option autoImplicit false
set_option linter.unusedSimpArgs false
namespace Verif.Props.Epx
open Verif.Node Verif.Exec Verif.Epx Verif.Props.Sync
open Verif.Text (Handle)

variable {Val Env : Type} {P : Plan Val Env}

/-- The interface has answered: the command succeeded, or was denied, or failed. -/
def Answered (h : Handle) : Prop := h = .success ∨ h = .denied ∨ h = .failed ∨ h = .interfaceError

/-- What a Command node in EXECUTING does. -/
theorem command_executing {o : Obs Val Env} {n : NodeId} (ht : (P.node n).type = .command) (hs : o.st n = .executing) :
    ((isT (conds P o n).ancExit = true ∨ Says (P.node n).exit o (some true) ∨ isF (conds P o n).ancInv = true ∨ Says (P.node n).inv o (some false)) ∧
      ∃ d, decideNext P o n = some d ∧ d.state = .failing) ∨
    (¬ Says (P.node n).exit o (some true) ∧ ¬ Says (P.node n).inv o (some false) ∧
      ((notT (conds P o n).endc = false ∧ ∃ d, decideNext P o n = some d ∧ d.state = .finishing) ∨ (notT (conds P o n).endc = true ∧ decideNext P o n = none))) := by
  rw [← isT_says, ← isF_says]
  have h1 : evalC (P.node n).exit o = (conds P o n).exit := rfl
  have h2 : evalC (P.node n).inv o = (conds P o n).inv := rfl
  rw [h1, h2]
  unfold decideNext
  rw [hs, ht]
  simp only [getDest, fromExecuting, abnormal]
  generalize conds P o n = c
  cases isT c.ancExit <;> cases isT c.exit <;> cases isF c.ancInv <;> cases isF c.inv <;> cases notT c.endc <;> simp

/-- A Command node with the end condition of a synchronous command. -/
structure SyncEnd (P : Plan Val Env) (n : NodeId) (h : Obs Val Env → Handle) (own : UCond Val Env) : Prop where
  type : (P.node n).type = .command
  endc : (P.node n).endc = syncEnd h own
  final : (P.node n).interruptible = handleIsFinal h

theorem SyncEnd.answered {n : NodeId} {h : Obs Val Env → Handle} {own : UCond Val Env} (hs : SyncEnd P n h own) {o : Obs Val Env} :
    notT (conds P o n).endc = false ↔ Answered (h o) ∨ Says own o (some true) := by
  simp only [conds, hs.type, hs.endc, hs.final, syncEnd, notT, Says, Answered]
  cases own with
  | none =>
    simp only [handleIs, handleIsFinal]
    cases h o <;> simp [or3]
  | some c =>
    simp only [handleIs, handleIsFinal]
    rcases hc : c o with _ | _ | _ <;> cases h o <;> simp [or3, hc]

theorem base_syncEnd {n : NodeId} {checked : Bool} {timeout : UCond Val Env} {h : Obs Val Env → Handle} {d : NodeDef Val Env}
    (hc : Contains P [(n, syncBase checked timeout h d)]) : SyncEnd P n h d.endc := by
  have := hc _ (List.mem_cons_self)
  simp only at this
  constructor <;> rw [this] <;> rfl

section ret
variable {p cmd asg : NodeId} {d : NodeDef Val Env} {checked : Bool} {timeout : UCond Val Env} {h : Obs Val Env → Handle} {known : Obs Val Env → Bool} {ret args : Obs Val Env → Val}
  {abortDone : Obs Val Env → Option Bool} {var : Nat}

theorem ret_cmd (hc : Contains P (syncReturn p d checked timeout h known ret cmd args abortDone asg var)) : P.node cmd =
    { type := .command, anc := p :: d.anc, inv := syncCmdInv checked timeout h, endc := some (handleIs h .success),
      post := if checked then some fun o => some (known o) else none,
      handleKnown := handleIsKnown h, interruptible := handleIsFinal h, abortDone := abortDone, rhs := args } :=
  hc (cmd, _) (by simp [syncReturn])

theorem ret_asg (hc : Contains P (syncReturn p d checked timeout h known ret cmd args abortDone asg var)) : P.node asg =
    { type := .assignment, anc := p :: d.anc, start := some fun o => some (known o), dest := var, rhs := ret } :=
  hc (asg, _) (by simp [syncReturn])

theorem ret_top (hc : Contains P (syncReturn p d checked timeout h known ret cmd args abortDone asg var)) : P.node p =
    { d with type := .list, children := [cmd, asg], inv := if checked then successInvariant [cmd, asg] d.inv else d.inv } :=
  hc (p, _) (by simp [syncReturn])

theorem ret_syncEnd (hc : Contains P (syncReturn p d checked timeout h known ret cmd args abortDone asg var)) : SyncEnd P cmd h none := by
  constructor <;> rw [ret_cmd hc] <;> rfl

theorem ret_watched (hc : Contains P (syncReturn p d true timeout h known ret cmd args abortDone asg var)) : Watched P p [cmd, asg] := by
  refine ⟨by rw [ret_top hc], by rw [ret_top hc], fun o k hk hf => ?_⟩
  have hn : noChildFailed [cmd, asg] o = some false := noChildFailed_iff.2 ⟨k, hk, by simpa [nodeFailed] using hf⟩
  rw [ret_top hc]
  simp only [successInvariant]
  cases d.inv with
  | none => exact ⟨_, rfl, hn⟩
  | some c =>
    refine ⟨_, rfl, ?_⟩
    simp only [hn]
    rcases c o with _ | _ | _ <;> rfl

theorem and3_false {a b : Option Bool} : and3 a b = some false ↔ a = some false ∨ b = some false := by
  rcases a with _ | _ | _ <;> rcases b with _ | _ | _ <;> simp [and3]

theorem conj_false {a b : UCond Val Env} {o : Obs Val Env} : Says (conj a b) o (some false) ↔ Says a o (some false) ∨ Says b o (some false) := by
  cases a with
  | none => simp [conj, Says]
  | some f =>
    cases b with
    | none => simp [conj, Says]
    | some g => simp [conj, Says, and3_false]

theorem syncCmdInv_false {o : Obs Val Env} :
    Says (syncCmdInv checked timeout h) o (some false) ↔ Says timeout o (some false) ∨ checked = true ∧ (h o = .denied ∨ h o = .failed ∨ h o = .interfaceError) := by
  unfold syncCmdInv
  cases checked with
  | false => simp
  | true =>
    rw [if_pos rfl, conj_false]
    refine or_congr Iff.rfl ?_
    simp only [Says, Option.some.injEq, exists_eq_left', and3_false, handleIsNot]
    cases h o <;> simp

end ret

/-! ## C124 -/

/-- C124: a synchronous command does not keep waiting. When nothing is left to check, its Command node is EXECUTING only if the interface has not answered (nor is the author's EndCondition true), and the
time is not over. -/
theorem C124_waits (hN : Notifies P) (hA : PlanTree P) {s : St Val Env} (hr : ReachN P .idle s) (hq : s.cand = []) {n : NodeId} {timeout : UCond Val Env} {h : Obs Val Env → Handle}
    (hex : s.st n = .executing) :
    (∀ checked d, Contains P [(n, syncBase checked timeout h d)] → ¬ Answered (h s.obs) ∧ ¬ Says d.endc s.obs (some true) ∧ ¬ Says timeout s.obs (some false)) ∧
    (∀ p d checked known ret args abortDone asg var, Contains P (syncReturn p d checked timeout h known ret n args abortDone asg var) →
      ¬ Answered (h s.obs) ∧ ¬ Says timeout s.obs (some false)) := by
  have hd := at_rest hN hA hr hq (n := n) (fun _ => by rw [hex]; simp) (fun e => by rw [hex] at e; cases e)
  have hex : s.obs.st n = .executing := hex
  have key : ∀ own, SyncEnd P n h own → ¬ Answered (h s.obs) ∧ ¬ Says own s.obs (some true) ∧ ¬ Says (P.node n).inv s.obs (some false) := by
    intro own he
    rcases command_executing he.type hex with ⟨_, d, g, _⟩ | ⟨_, g1, ⟨_, d, g, _⟩ | ⟨g2, _⟩⟩
    · rw [g] at hd; cases hd
    · rw [g] at hd; cases hd
    · refine ⟨fun g => ?_, fun g => ?_, g1⟩
      · rw [he.answered.2 (.inl g)] at g2; cases g2
      · rw [he.answered.2 (.inr g)] at g2; cases g2
  refine ⟨fun checked d hc => ?_, fun p d checked known ret args abortDone asg var hc => ?_⟩
  · obtain ⟨g1, g2, g3⟩ := key _ (base_syncEnd hc)
    refine ⟨g1, g2, fun g => g3 ?_⟩
    rw [hc _ List.mem_cons_self]
    exact conj_false.2 (.inr g)
  · obtain ⟨g1, g2, g3⟩ := key _ (ret_syncEnd hc)
    refine ⟨g1, fun g => g3 ?_⟩
    rw [ret_cmd hc]
    exact syncCmdInv_false.2 (.inl g)

/-- C124: a synchronous command ends normally only when the interface has answered, or the author's EndCondition is true. It is aborted only when it is told to stop, the author's Exit or Invariant condition
says so, the time is over, or, for a checked command with a result, the answer is that it was denied or failed. -/
theorem C124_ends (hN : Notifies P) (hA : PlanTree P) {ph : Phase} {s : St Val Env} (hr : ReachN P ph s) {n : NodeId} {timeout : UCond Val Env} {h : Obs Val Env → Handle} {x o}
    (he : .trans n .executing x o ∈ s.log) :
    (∀ checked d, Contains P [(n, syncBase checked timeout h d)] →
      (x = .finishing ∧ (Answered (h o) ∨ Says d.endc o (some true))) ∨
      (x = .failing ∧ (ToldToStop P o n ∨ Says d.exit o (some true) ∨ Says d.inv o (some false) ∨ Says timeout o (some false)))) ∧
    (∀ p d checked known ret args abortDone asg var, Contains P (syncReturn p d checked timeout h known ret n args abortDone asg var) →
      (x = .finishing ∧ Answered (h o) ∧ (checked = true → h o = .success)) ∨
      (x = .failing ∧ (ToldToStop P o n ∨ Says timeout o (some false) ∨ checked = true ∧ Answered (h o) ∧ h o ≠ .success))) := by
  obtain ⟨h1, e, h2, rfl⟩ := event_decided hN hA hr he
  refine ⟨fun checked d hc => ?_, fun p d checked known ret args abortDone asg var hc => ?_⟩
  · have hE := base_syncEnd hc
    have hn : P.node n = syncBase checked timeout h d := hc _ List.mem_cons_self
    rcases command_executing hE.type h1 with ⟨g, e', g1, g2⟩ | ⟨_, _, ⟨g, e', g1, g2⟩ | ⟨_, g⟩⟩
    · rw [h2] at g1; cases g1
      refine .inr ⟨g2, ?_⟩
      rcases g with g | g | g | g
      · exact .inl (told_iff.2 (.inl g))
      · rw [hn] at g; exact .inr (.inl g)
      · exact .inl (told_iff.2 (.inr (.inl g)))
      · rw [hn] at g; exact .inr (.inr (conj_false.1 g))
    · rw [h2] at g1; cases g1
      exact .inl ⟨g2, hE.answered.1 g⟩
    · rw [h2] at g; cases g
  · have hE := ret_syncEnd hc
    have hn := ret_cmd hc
    rcases command_executing hE.type h1 with ⟨g, e', g1, g2⟩ | ⟨_, g0, ⟨g, e', g1, g2⟩ | ⟨_, g⟩⟩
    · rw [h2] at g1; cases g1
      refine .inr ⟨g2, ?_⟩
      rcases g with g | g | g | g
      · exact .inl (told_iff.2 (.inl g))
      · rw [hn] at g; obtain ⟨_, g, _⟩ := g; cases g
      · exact .inl (told_iff.2 (.inr (.inl g)))
      · rw [hn] at g
        rcases syncCmdInv_false.1 g with g | ⟨g3, g4⟩
        · exact .inr (.inl g)
        · exact .inr (.inr ⟨g3, .inr g4, fun e => by rw [e] at g4; simp at g4⟩)
    · rw [h2] at g1; cases g1
      have := hE.answered.1 g
      have ha : Answered (h o) := this.elim id fun ⟨_, g, _⟩ => by cases g
      refine .inl ⟨g2, ha, fun hk => ?_⟩
      rw [hn] at g0
      rcases ha with g | g
      · exact g
      · exact absurd (syncCmdInv_false.2 (.inr ⟨hk, g⟩)) g0
    · rw [h2] at g; cases g

/-- C124: if a checked synchronous command Succeeded, the interface reported success at the end of its last iteration. -/
theorem C124_checked (hN : Notifies P) (hA : PlanTree P) {ph : Phase} {s : St Val Env} (hr : ReachN P ph s) (hph : ph ≠ .trans) {n : NodeId} {timeout : UCond Val Env}
    {h : Obs Val Env → Handle} {d : NodeDef Val Env} (hc : Contains P [(n, syncBase true timeout h d)]) (hs : nodeSucceeded n s.obs = some true) :
    ∃ L0 a o L1, transitions s.log = L0 ++ .trans n a .iterationEnded o :: L1 ∧ (∀ b o', .trans n b .iterationEnded o' ∉ L1) ∧ h o = .success := by
  obtain ⟨L0, a, o, L1, h1, h2, h3⟩ := C116_succeeded hN hA.tree hr hph hs
  refine ⟨L0, a, o, L1, h1, h2, ?_⟩
  have hn : P.node n = syncBase true timeout h d := hc _ List.mem_cons_self
  rw [hn] at h3
  simp only [syncBase, syncPost, if_pos] at h3
  cases hp : d.post with
  | none =>
    rw [hp] at h3
    have := h3 _ rfl
    revert this
    simp only [handleIs]
    cases h o <;> simp
  | some f =>
    rw [hp] at h3
    have := h3 _ rfl
    revert this
    simp only [handleIs]
    rcases f o with _ | _ | _ <;> cases h o <;> simp [and3]

/-- C124: the result of a synchronous command is assigned only once there is one, and it ends normally only when it has been assigned. If it is checked and Succeeded, the command and the
assignment are FINISHED and did not Fail, and there was a result at the end of the command; if it is checked and the command Failed, it does not go on. -/
theorem C124_result (hN : Notifies P) (hA : PlanTree P) {ph : Phase} {s : St Val Env} (hr : ReachN P ph s) {p cmd asg : NodeId} {d : NodeDef Val Env} {checked : Bool}
    {timeout : UCond Val Env} {h : Obs Val Env → Handle} {known : Obs Val Env → Bool} {ret args : Obs Val Env → Val} {abortDone : Obs Val Env → Option Bool} {var : Nat}
    (hc : Contains P (syncReturn p d checked timeout h known ret cmd args abortDone asg var)) (hend : d.endc = none) :
    (∀ x o, .trans asg .waiting x o ∈ s.log → x = .executing ∨ x = .iterationEnded → known o = true) ∧
    (∀ o, .trans p .executing .finishing o ∈ s.log → nodeFinished cmd o = some true ∧ nodeFinished asg o = some true) ∧
    (checked = true → ph ≠ .trans → nodeSucceeded p s.obs = some true →
      nodeFinished cmd s.obs = some true ∧ nodeFailed cmd s.obs = some false ∧ nodeFinished asg s.obs = some true ∧ nodeFailed asg s.obs = some false) ∧
    (ph ≠ .trans → checked = true → nodeSucceeded cmd s.obs = some true →
      ∃ L0 a o L1, transitions s.log = L0 ++ .trans cmd a .iterationEnded o :: L1 ∧ (∀ b o', .trans cmd b .iterationEnded o' ∉ L1) ∧ known o = true) ∧
    (checked = true → ph = .idle → s.cand = [] → nodeFailed cmd s.obs = some true → s.st p ≠ .executing ∧ s.st p ≠ .finishing) := by
  refine ⟨fun x o he hx => ?_, fun o he => ?_, fun hk hph hs => ?_, fun hph hk hs => ?_, fun hk hph hcand hf => ?_⟩
  · have := (start_event hN hA hr he hx).2.2.2 (fun o => some (known o)) (by rw [ret_asg hc])
    simpa using this
  · obtain ⟨h1, e, h2, h3⟩ := event_decided hN hA hr he
    have ht := ret_top hc
    have hall : allFinished o [cmd, asg] = true := by
      unfold decideNext at h2
      rw [h1, ht] at h2
      simp only [getDest, fromExecuting, abnormal] at h2
      have hne : (conds P o p).endc = some (some (allFinished o [cmd, asg])) := by simp [conds, ht, hend]
      revert h2
      rw [hne]
      generalize conds P o p = c
      cases allFinished o [cmd, asg] <;> cases isT c.ancExit <;> cases isT c.exit <;> cases isF c.ancInv <;> cases isF c.inv <;> simp [notT] <;> rintro rfl <;> cases h3
    simpa [allFinished, nodeFinished] using hall
  · subst hk
    have := (ret_watched hc).success hN hA hr hph (by rw [ret_top hc]; exact hend) hs
    obtain ⟨g1, g2⟩ := this cmd (by simp)
    obtain ⟨g3, g4⟩ := this asg (by simp)
    exact ⟨g1, g2, g3, g4⟩
  · subst hk
    obtain ⟨L0, a, o, L1, h1, h2, h3⟩ := C116_succeeded hN hA.tree hr hph hs
    refine ⟨L0, a, o, L1, h1, h2, ?_⟩
    have := h3 (fun o => some (known o)) (by rw [ret_cmd hc]; rfl)
    simpa using this
  · subst hk
    exact ((ret_watched hc).fails hN hA (k := cmd) (by simp)).1 s (hph ▸ hr) hcand hf

/-! ## Synchronous commands -/

set_option maxRecDepth 10000

/-- Handles for examples: env 1 is failed, 2 sent, 3 denied, 4 success, 5 success with a result; otherwise there is none. (`CommandHandle.hh:39-52`.) -/
def handleOf (o : Obs Int Nat) : Handle :=
  match o.env with
  | 1 => .failed
  | 2 => .sent
  | 3 => .denied
  | 4 | 5 => .success
  | _ => .none

/-- A synchronous command (0) with Command node (1) and assignment (2); the time is over when env is 6, and then the abort is acknowledged. (`synchronous-command.xsl:217-329`.) -/
def ask (checked : Bool) : Block Int Nat :=
  syncReturn 0 (plain []) checked (some fun o => some (o.env != 6)) handleOf (fun o => o.env == 5) (fun _ => 7) 1 (fun _ => 3) (fun o => some (o.env == 6)) 2 0

theorem ask_contains (checked : Bool) : Contains (planOf (ask checked)) (ask checked) := planOf_contains (by cases checked <;> decide) fun _ h => h

theorem ask_tree (checked : Bool) : PlanTree (planOf (ask checked)) := by
  cases checked <;> exact planOf_tree (top := 2) rfl

/-- C124: without Checked, a synchronous command whose command fails gets stuck: the command has FINISHED, and the wrapper waits for the assignment of a result that does not come, although the
interface has answered and nothing is left to check. (`synchronous-command.xsl:284-287`: the assignment is started by the result only, and nothing ends it when there is none.) -/
theorem C124_failed_stuck : Notifies (planOf (ask false)) ∧ PlanTree (planOf (ask false)) ∧ Contains (planOf (ask false)) (ask false) ∧ ∃ s, ReachN (planOf (ask false)) .idle s ∧
    s.cand = [] ∧ handleOf s.obs = .failed ∧ nodeFinished 1 s.obs = some true ∧ s.st 0 = .executing ∧ s.st 2 = .waiting := by
  refine ⟨planOf_notifies _, ask_tree _, ask_contains _, ?_⟩
  obtain ⟨ph, s, h, hf⟩ := exists_runN (planOf_good (ask false)) [.cmd (.ext 0 [0, 1, 2]), .macroStep, .cmd (.ext 1 [0, 1, 2]), .macroStep] rfl (fun _ => 0) 0
    (fun x => (x.1, x.2.cand, handleOf x.2.obs, nodeFinished 1 x.2.obs, x.2.st 0, x.2.st 2)) (.idle, [], .failed, some true, .executing, .waiting) rfl
  simp only [Prod.mk.injEq] at hf
  obtain ⟨rfl, h1, h2, h3, h4, h5⟩ := hf
  exact ⟨s, h, h1, h2, h3, h4, h5⟩

/-- C124: the same when the time is over: the Timeout ends the Command node, not the synchronous command. -/
theorem C124_timeout_stuck : Notifies (planOf (ask false)) ∧ PlanTree (planOf (ask false)) ∧ Contains (planOf (ask false)) (ask false) ∧ ∃ s, ReachN (planOf (ask false)) .idle s ∧
    s.cand = [] ∧ nodeFailed 1 s.obs = some true ∧ s.st 0 = .executing ∧ s.st 2 = .waiting := by
  refine ⟨planOf_notifies _, ask_tree _, ask_contains _, ?_⟩
  obtain ⟨ph, s, h, hf⟩ := exists_runN (planOf_good (ask false)) [.cmd (.ext 0 [0, 1, 2]), .macroStep, .cmd (.ext 6 [0, 1, 2]), .macroStep, .macroStep] rfl (fun _ => 0) 0
    (fun x => (x.1, x.2.cand, nodeFailed 1 x.2.obs, x.2.st 0, x.2.st 2)) (.idle, [], some true, .executing, .waiting) rfl
  simp only [Prod.mk.injEq] at hf
  obtain ⟨rfl, h1, h3, h4, h5⟩ := hf
  exact ⟨s, h, h1, h3, h4, h5⟩

/-- C124: a checked synchronous command with a result whose command was denied asks the interface to abort the command, which was never sent, and waits for the answer. (`synchronous-command.xsl:331-354`: the
handle is looked at in the InvariantCondition.) -/
theorem C124_denied_aborted : Notifies (planOf (ask true)) ∧ PlanTree (planOf (ask true)) ∧ Contains (planOf (ask true)) (ask true) ∧ ∃ s, ReachN (planOf (ask true)) .idle s ∧
    s.cand = [] ∧ handleOf s.obs = .denied ∧ .abort 1 ∈ s.log ∧ s.st 1 = .failing := by
  refine ⟨planOf_notifies _, ask_tree _, ask_contains _, ?_⟩
  obtain ⟨ph, s, h, hf⟩ := exists_runN (planOf_good (ask true)) [.cmd (.ext 0 [0, 1, 2]), .macroStep, .cmd (.ext 3 [0, 1, 2]), .macroStep, .macroStep] rfl (fun _ => 0) 0
    (fun x => (x.1, x.2.cand, handleOf x.2.obs, x.2.log.any (fun | .abort n => n == 1 | _ => false), x.2.st 1)) (.idle, [], .denied, true, .failing) rfl
  simp only [Prod.mk.injEq] at hf
  obtain ⟨rfl, h1, h3, h4, h5⟩ := hf
  obtain ⟨e, g1, g2⟩ := List.any_eq_true.1 h4
  split at g2
  · simp only [beq_iff_eq] at g2; subst g2; exact ⟨s, h, h1, h3, g1, h5⟩
  · cases g2

/-- C124: a checked synchronous command with a result that Succeeds. -/
example : ∃ s, ReachN (planOf (ask true)) .idle s ∧ nodeSucceeded 0 s.obs = some true ∧ nodeSucceeded 1 s.obs = some true ∧ s.vars 0 = 7 := by
  obtain ⟨ph, s, h, hf⟩ := exists_runN (planOf_good (ask true)) [.cmd (.ext 0 [0, 1, 2]), .macroStep, .cmd (.ext 2 [0, 1, 2]), .macroStep, .cmd (.ext 5 [0, 1, 2]), .macroStep, .macroStep] rfl (fun _ => 0) 0
    (fun x => (x.1, nodeSucceeded 0 x.2.obs, nodeSucceeded 1 x.2.obs, x.2.vars 0)) (.idle, some true, some true, 7) rfl
  simp only [Prod.mk.injEq] at hf
  obtain ⟨rfl, h1, h2, h3⟩ := hf
  exact ⟨s, h, h1, h2, h3⟩

/-- The hypotheses of `C124_waits` and `C124_ends` are met: the command waits while it is only sent, and ends with the result. -/
example : (∃ s, ReachN (planOf (ask false)) .idle s ∧ s.cand = [] ∧ s.st 1 = .executing ∧ handleOf s.obs = .sent) ∧
    ∃ s, ReachN (planOf (ask false)) .idle s ∧ ∃ o, .trans 1 .executing .finishing o ∈ s.log := by
  refine ⟨?_, ?_⟩
  · obtain ⟨ph, s, h, hf⟩ := exists_runN (planOf_good (ask false)) [.cmd (.ext 0 [0, 1, 2]), .macroStep, .cmd (.ext 2 [0, 1, 2]), .macroStep] rfl (fun _ => 0) 0
      (fun x => (x.1, x.2.cand, x.2.st 1, handleOf x.2.obs)) (.idle, [], .executing, .sent) rfl
    simp only [Prod.mk.injEq] at hf
    obtain ⟨rfl, h1, h2, h3⟩ := hf
    exact ⟨s, h, h1, h2, h3⟩
  · obtain ⟨ph, s, h, hf⟩ := exists_runN (planOf_good (ask false)) [.cmd (.ext 0 [0, 1, 2]), .macroStep, .cmd (.ext 5 [0, 1, 2]), .macroStep] rfl (fun _ => 0) 0
      (fun x => (x.1, x.2.log.any (goesAt 1 .executing .finishing))) (.idle, true) rfl
    simp only [Prod.mk.injEq] at hf
    obtain ⟨rfl, h1⟩ := hf
    exact ⟨s, h, goes_mem h1⟩

/-- The hypotheses of `C124_checked` are met. -/
example : ∃ s, ReachN (planOf [(0, syncBase true none handleOf (plain []))]) .idle s ∧ Contains (planOf [(0, syncBase true none handleOf (plain []))]) [(0, syncBase true none handleOf (plain []))] ∧
    nodeSucceeded 0 s.obs = some true := by
  obtain ⟨ph, s, h, hf⟩ := exists_runN (planOf_good [(0, syncBase true none handleOf (plain []))]) [.cmd (.ext 0 [0]), .macroStep, .cmd (.ext 4 [0]), .macroStep] rfl (fun _ => 0) 0
    (fun x => (x.1, nodeSucceeded 0 x.2.obs)) (.idle, some true) rfl
  simp only [Prod.mk.injEq] at hf
  obtain ⟨rfl, h1⟩ := hf
  exact ⟨s, h, planOf_contains (by decide) fun _ h => h, h1⟩

end Verif.Props.Epx
