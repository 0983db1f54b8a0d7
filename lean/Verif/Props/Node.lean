import Verif.Node.Spec
/-
Property theorems about a single node: C01 (state diagram), C02 (precedence of conditions), C05 (dependence on the parent),
C31 (conditions are active when read, activations balance). The lifting of C01, C03, C04, C05 to whole executions is in
`Verif.Props.Exec`.
-/
namespace Verif.Props.Node
open Verif.Node

/-! ## C01 -/

/-- C01 (one decision). Whatever the conditions and the parent's state, a node in a state that exists for its type only
chooses a destination allowed by the documented diagram, which again exists for its type. -/
theorem C01_destination_in_diagram (t : NodeType) (s : NState) (parent : Option NState) (f : Failure) (c : Conds) (d : Dest)
    (hs : StateExists t s) (h : getDest t s parent f c = some d) : Diagram t s d.state ∧ StateExists t d.state := by
  cases s <;> cases t <;>
    simp only [getDest, fromInactive, fromWaiting, fromExecuting, fromFinishing, fromFailing, fromIterationEnded, fromFinished,
      abnormal, endIteration] at h <;>
    first
    | (simp [StateExists] at hs; done)
    | (repeat' split at h) <;>
      first
      | (cases h; done)
      | (cases h; exact ⟨by constructor <;> simp, trivial⟩)
      | (cases h; rename_i ha; revert ha; repeat' split) <;>
        (intro ha; first | (cases ha; done) | (cases ha; exact ⟨by constructor <;> simp, trivial⟩))

/-- The diagram is tight: every edge is taken under some conditions. -/
theorem C01_every_edge_possible (t : NodeType) (a b : NState) (h : Diagram t a b) :
    ∃ parent f c d, getDest t a parent f c = some d ∧ d.state = b := by
  let z : Conds := ⟨none, none, none, none, none, none, none, none, none, none, none, some (some true), some (some true)⟩
  cases h with
  | activate => exact ⟨none, .none, z, _, rfl, rfl⟩
  | skipInactive => exact ⟨some .finished, .none, z, _, rfl, rfl⟩
  | start => exact ⟨none, .none, z, _, rfl, rfl⟩
  | skip => exact ⟨none, .none, { z with skip := some (some true) }, _, rfl, rfl⟩
  | preFailed => exact ⟨none, .none, { z with pre := some (some false) }, _, rfl, rfl⟩
  | emptyEnd => exact ⟨none, .none, z, _, rfl, rfl⟩
  | emptyStop => exact ⟨none, .none, { z with ancExit := some (some true) }, _, rfl, rfl⟩
  | assignEnd => exact ⟨none, .none, z, _, rfl, rfl⟩
  | assignFail => exact ⟨none, .none, { z with exit := some (some true) }, _, rfl, rfl⟩
  | updateEnd => exact ⟨none, .none, z, _, rfl, rfl⟩
  | updateFail => exact ⟨none, .none, { z with exit := some (some true) }, _, rfl, rfl⟩
  | commandFinishing => exact ⟨none, .none, z, _, rfl, rfl⟩
  | commandFail => exact ⟨none, .none, { z with exit := some (some true) }, _, rfl, rfl⟩
  | listFinishing => exact ⟨none, .none, z, _, rfl, rfl⟩
  | listFail => exact ⟨none, .none, { z with exit := some (some true) }, _, rfl, rfl⟩
  | finishingEnd ht => rcases ht with rfl | rfl <;> exact ⟨none, .none, z, _, rfl, rfl⟩
  | finishingFail ht => rcases ht with rfl | rfl <;> exact ⟨none, .none, { z with exit := some (some true) }, _, rfl, rfl⟩
  | failingEnd ht => cases t <;> first | exact absurd rfl ht | exact ⟨none, .none, z, _, rfl, rfl⟩
  | failingStop ht => cases t <;> first | exact absurd rfl ht | exact ⟨none, .parentFailed, z, _, rfl, rfl⟩
  | repeat_ => exact ⟨none, .none, { z with rep := some (some true) }, _, rfl, rfl⟩
  | finish => exact ⟨none, .none, z, _, rfl, rfl⟩
  | reset => exact ⟨some .waiting, .none, z, _, rfl, rfl⟩

/-! ## C02 -/

/-- Where a node goes when it is stopped: an empty node ends its iteration (own reason) or is finished (ancestor's reason);
all others go to FAILING. -/
def stop (t : NodeType) (own : Bool) (o : Outcome) (f : Failure) : Dest :=
  ⟨if t = .empty then (if own then .iterationEnded else .finished) else .failing, o, f⟩

/-- A condition that is there and true / false. -/
def True' (c : Cond) : Prop := c = some (some true)
def False' (c : Cond) : Prop := c = some (some false)
/-- A condition that is absent or true. -/
def Holds (c : Cond) : Prop := c = none ∨ c = some (some true)

theorem isT_iff {c} : isT c = true ↔ True' c := by simp [isT, True']
theorem isF_iff {c} : isF c = true ↔ False' c := by simp [isF, False']
theorem notT_iff {c} : notT c = true ↔ ¬ Holds c := by
  rcases c with _ | _ | _ | _ <;> simp [notT, Holds]

/-- C02, EXECUTING and FINISHING. The recorded reason for stopping follows the precedence ancestor exit, exit, ancestor
invariant, invariant (for an Assignment, only once its action is complete). -/
theorem C02_stop_precedence (t : NodeType) (s : NState) (parent : Option NState) (f : Failure) (c : Conds)
    (hs : s = .executing ∨ s = .finishing) (he : StateExists t s)
    (ha : t = .assignment → True' c.actionComplete) :
    (True' c.ancExit → getDest t s parent f c = some (stop t false .interrupted .parentExited)) ∧
    (¬ True' c.ancExit → True' c.exit → getDest t s parent f c = some (stop t true .interrupted .exited)) ∧
    (¬ True' c.ancExit → ¬ True' c.exit → False' c.ancInv →
      getDest t s parent f c = some (stop t false .failure .parentFailed)) ∧
    (¬ True' c.ancExit → ¬ True' c.exit → ¬ False' c.ancInv → False' c.inv →
      getDest t s parent f c = some (stop t true .failure .invFailed)) := by
  simp only [← isT_iff, ← isF_iff] at ha ⊢
  rcases hs with rfl | rfl <;> cases t <;>
    first
    | (simp [StateExists] at he; done)
    | (refine ⟨?_, ?_, ?_, ?_⟩ <;> intros <;> simp_all [getDest, fromExecuting, fromFinishing, abnormal, stop])

/-- C02, normal end of EXECUTING: with none of the stop reasons, a node leaves EXECUTING exactly when End is true or absent
(for an Assignment, and its action is complete); Command and List nodes then go to FINISHING without outcome,
the others end the iteration with SUCCESS if Post is true or absent and FAILURE/POST_CONDITION_FAILED otherwise. -/
theorem C02_executing_normal_end (t : NodeType) (parent : Option NState) (f : Failure) (c : Conds)
    (h1 : ¬ True' c.ancExit) (h2 : ¬ True' c.exit) (h3 : ¬ False' c.ancInv) (h4 : ¬ False' c.inv) :
    (getDest t .executing parent f c = none ↔ ¬ Holds c.endc ∨ (t = .assignment ∧ ¬ True' c.actionComplete)) ∧
    (∀ d, getDest t .executing parent f c = some d →
      if t = .command ∨ t = .list then d = ⟨.finishing, .none, .none⟩
      else (Holds c.post → d = ⟨.iterationEnded, .success, .none⟩) ∧
        (¬ Holds c.post → d = ⟨.iterationEnded, .failure, .postFailed⟩)) := by
  simp only [← isT_iff, ← isF_iff, ← notT_iff, Bool.not_eq_true] at h1 h2 h3 h4 ⊢
  have hp : Holds c.post ↔ notT c.post = false := by
    rw [← Bool.not_eq_true, notT_iff, Classical.not_not]
  rw [hp]
  cases t <;>
    (refine ⟨?_, ?_⟩
     · cases he : notT c.endc <;> cases hac : isT c.actionComplete <;>
         simp [getDest, fromExecuting, abnormal, h1, h2, h3, h4, he, hac]
     · intro d hd
       cases he : notT c.endc <;> cases hac : isT c.actionComplete <;> cases hq : notT c.post <;>
         simp_all [getDest, fromExecuting, abnormal, endIteration])

/-- C02, normal end of FINISHING: with none of the stop reasons, exactly when the action is complete. -/
theorem C02_finishing_normal_end (t : NodeType) (ht : t = .command ∨ t = .list) (parent : Option NState) (f : Failure) (c : Conds)
    (h1 : ¬ True' c.ancExit) (h2 : ¬ True' c.exit) (h3 : ¬ False' c.ancInv) (h4 : ¬ False' c.inv) :
    (getDest t .finishing parent f c = none ↔ ¬ True' c.actionComplete) ∧
    (∀ d, getDest t .finishing parent f c = some d →
      (Holds c.post → d = ⟨.iterationEnded, .success, .none⟩) ∧
      (¬ Holds c.post → d = ⟨.iterationEnded, .failure, .postFailed⟩)) := by
  simp only [← isT_iff, ← isF_iff, ← notT_iff, Bool.not_eq_true] at h1 h2 h3 h4 ⊢
  have hp : Holds c.post ↔ notT c.post = false := by
    rw [← Bool.not_eq_true, notT_iff, Classical.not_not]
  rw [hp]
  rcases ht with rfl | rfl <;>
    (refine ⟨?_, ?_⟩
     · cases hac : isT c.actionComplete <;> simp [getDest, fromFinishing, abnormal, h1, h2, h3, h4, hac]
     · intro d hd
       cases hac : isT c.actionComplete <;> cases hq : notT c.post <;>
         simp_all [getDest, fromFinishing, abnormal, endIteration])

/-- C02, WAITING. Skipped exactly when ancestor exit, exit, ancestor end or skip is true or the ancestor invariant is false;
otherwise the node waits unless Start is true or absent; then it executes if Pre is true or absent and fails
with PRE_CONDITION_FAILED if not. -/
theorem C02_waiting (t : NodeType) (parent : Option NState) (f : Failure) (c : Conds) :
    let skipped := True' c.ancExit ∨ True' c.exit ∨ False' c.ancInv ∨ True' c.ancEnd ∨ True' c.skip
    let r := getDest t .waiting parent f c
    (skipped → r = some ⟨.finished, .skipped, .none⟩) ∧
    (¬ skipped → ¬ Holds c.start → r = none) ∧
    (¬ skipped → Holds c.start → Holds c.pre → r = some ⟨.executing, .none, .none⟩) ∧
    (¬ skipped → Holds c.start → ¬ Holds c.pre → r = some ⟨.iterationEnded, .failure, .preFailed⟩) := by
  have hst : Holds c.start ↔ notT c.start = false := by rw [← Bool.not_eq_true, notT_iff, Classical.not_not]
  have hpr : Holds c.pre ↔ notT c.pre = false := by rw [← Bool.not_eq_true, notT_iff, Classical.not_not]
  simp only [← isT_iff, ← isF_iff, hst, hpr]
  cases h1 : isT c.ancExit <;> cases h2 : isT c.exit <;> cases h3 : isF c.ancInv <;> cases h4 : isT c.ancEnd <;>
    cases h5 : isT c.skip <;> cases h6 : notT c.start <;> cases h7 : notT c.pre <;>
    simp [getDest, fromWaiting, h1, h2, h3, h4, h5, h6, h7]

/-- C02, ITERATION_ENDED: ancestor exit, ancestor invariant, ancestor end, then Repeat (unknown: stay). -/
theorem C02_iteration_ended (t : NodeType) (parent : Option NState) (f : Failure) (c : Conds) :
    let r := getDest t .iterationEnded parent f c
    (True' c.ancExit → r = some ⟨.finished, .interrupted, .parentExited⟩) ∧
    (¬ True' c.ancExit → False' c.ancInv → r = some ⟨.finished, .failure, .parentFailed⟩) ∧
    (¬ True' c.ancExit → ¬ False' c.ancInv → True' c.ancEnd → r = some ⟨.finished, .none, .none⟩) ∧
    (¬ True' c.ancExit → ¬ False' c.ancInv → ¬ True' c.ancEnd →
      (c.rep = some none → r = none) ∧ (True' c.rep → r = some ⟨.waiting, .none, .none⟩) ∧
      ((c.rep = none ∨ False' c.rep) → r = some ⟨.finished, .none, .none⟩)) := by
  simp only [← isT_iff, ← isF_iff]
  cases h1 : isT c.ancExit <;> cases h3 : isF c.ancInv <;> cases h4 : isT c.ancEnd <;>
    rcases h5 : c.rep with _ | _ | _ | _ <;>
    simp [getDest, fromIterationEnded, h1, h3, h4, h5, show isT none = false from rfl, show isT (some none) = false from rfl,
      show isT (some (some false)) = false from rfl, show isT (some (some true)) = true from rfl,
      show isF none = false from rfl, show isF (some (some false)) = true from rfl,
      show isF (some (some true)) = false from rfl, show isF (some none) = false from rfl]

/-- C02, INACTIVE and FINISHED. An INACTIVE root starts waiting; an INACTIVE child of an EXECUTING parent is skipped when ancestor exit or ancestor
end is true or the ancestor invariant is false, and starts waiting otherwise; it is skipped when the parent is FINISHED; it stays
INACTIVE in all other cases. A FINISHED node becomes INACTIVE exactly when its parent is WAITING. -/
theorem C02_inactive_finished (t : NodeType) (parent : Option NState) (f : Failure) (c : Conds) :
    let told := True' c.ancExit ∨ False' c.ancInv ∨ True' c.ancEnd
    let r := getDest t .inactive parent f c
    (parent = none → r = some ⟨.waiting, .none, .none⟩) ∧
    (parent = some .executing → told → r = some ⟨.finished, .skipped, .none⟩) ∧
    (parent = some .executing → ¬ told → r = some ⟨.waiting, .none, .none⟩) ∧
    (parent = some .finished → r = some ⟨.finished, .skipped, .none⟩) ∧
    (parent ≠ none → parent ≠ some .executing → parent ≠ some .finished → r = none) ∧
    (parent = some .waiting → getDest t .finished parent f c = some ⟨.inactive, .none, .none⟩) ∧
    (parent ≠ some .waiting → getDest t .finished parent f c = none) := by
  simp only [← isT_iff, ← isF_iff]
  refine ⟨?_, ?_, ?_, ?_, ?_, ?_, ?_⟩
  · rintro rfl; rfl
  · rintro rfl ht
    cases h1 : isT c.ancExit <;> cases h3 : isF c.ancInv <;> cases h4 : isT c.ancEnd <;> simp_all [getDest, fromInactive]
  · rintro rfl ht
    cases h1 : isT c.ancExit <;> cases h3 : isF c.ancInv <;> cases h4 : isT c.ancEnd <;> simp_all [getDest, fromInactive]
  · rintro rfl; rfl
  · intro h1 h2 h3
    rcases parent with _ | p
    · exact absurd rfl h1
    · cases p <;> simp_all [getDest, fromInactive]
  · rintro rfl; rfl
  · intro h; simp [getDest, fromFinished, h]

/-- C02, FAILING. A node leaves FAILING exactly when its clean-up is complete (Assignment, Command: the abort; Update, List: the action); it is
FINISHED if an ancestor was the reason and ends its iteration otherwise; the outcome is the one recorded when it began to fail. -/
theorem C02_failing (t : NodeType) (ht : t ≠ .empty) (parent : Option NState) (f : Failure) (c : Conds) :
    let done := if t = .assignment ∨ t = .command then True' c.abortComplete else True' c.actionComplete
    let r := getDest t .failing parent f c
    (¬ done → r = none) ∧
    (done → (f = .parentFailed ∨ f = .parentExited) → r = some ⟨.finished, .none, .none⟩) ∧
    (done → ¬ (f = .parentFailed ∨ f = .parentExited) → r = some ⟨.iterationEnded, .none, .none⟩) := by
  simp only [← isT_iff]
  cases t <;> first
    | exact absurd rfl ht
    | (cases h1 : isT c.abortComplete <;> cases h2 : isT c.actionComplete <;> by_cases h3 : f = .parentFailed ∨ f = .parentExited <;>
        simp [getDest, fromFailing, h1, h2, h3])

/-- Forget the difference between "unknown" and "absent" where the code must not see one, and between "unknown" and false
where unknown must not count as true. -/
def dropUnknown (c : Cond) : Cond := if c = some none then none else c
def unknownFalse (c : Cond) : Cond := if c = some none then some (some false) else c

/-- C02. An unknown exit, skip or ancestor condition or invariant never triggers anything (as if it were absent); an unknown Start, Pre,
End or Post never lets anything through (as if it were false). -/
theorem C02_unknown (t : NodeType) (s : NState) (parent : Option NState) (f : Failure) (c : Conds) :
    getDest t s parent f c = getDest t s parent f { c with
      ancExit := dropUnknown c.ancExit, exit := dropUnknown c.exit, ancInv := dropUnknown c.ancInv, inv := dropUnknown c.inv,
      ancEnd := dropUnknown c.ancEnd, skip := dropUnknown c.skip,
      start := unknownFalse c.start, pre := unknownFalse c.pre, endc := unknownFalse c.endc, post := unknownFalse c.post,
      actionComplete := unknownFalse c.actionComplete, abortComplete := unknownFalse c.abortComplete } := by
  have hT : ∀ x, isT (dropUnknown x) = isT x := by intro x; rcases x with _ | _ | _ | _ <;> rfl
  have hF : ∀ x, isF (dropUnknown x) = isF x := by intro x; rcases x with _ | _ | _ | _ <;> rfl
  have hN : ∀ x, notT (unknownFalse x) = notT x := by intro x; rcases x with _ | _ | _ | _ <;> rfl
  have hT2 : ∀ x, isT (unknownFalse x) = isT x := by intro x; rcases x with _ | _ | _ | _ <;> rfl
  simp only [getDest, fromInactive, fromWaiting, fromExecuting, fromFinishing, fromFailing, fromIterationEnded, fromFinished,
    abnormal, endIteration, hT, hF, hN, hT2]

/-- Example conditions: everything absent. -/
def noConds : Conds := ⟨none, none, none, none, none, none, none, none, none, none, none, none, none⟩

/-- Non-vacuity of the C02 theorems: a FINISHING command whose ancestor exits and whose invariant fails reports the former. -/
example : getDest .command .finishing none .none { noConds with ancExit := some (some true), inv := some (some false) } =
    some ⟨.failing, .interrupted, .parentExited⟩ := rfl
/-- An unknown End keeps the node EXECUTING; an unknown Post fails it. -/
example : getDest .empty .executing none .none { noConds with endc := some none } = none := rfl
example : getDest .empty .executing none .none { noConds with post := some none } =
    some ⟨.iterationEnded, .failure, .postFailed⟩ := rfl
example : getDest .list .waiting (some .executing) .none { noConds with pre := some none } =
    some ⟨.iterationEnded, .failure, .preFailed⟩ := rfl

example : getDest .update .inactive (some .executing) .none { noConds with ancEnd := some (some true) } = some ⟨.finished, .skipped, .none⟩ := rfl
example : getDest .command .failing none .exited { noConds with abortComplete := some (some true) } = some ⟨.iterationEnded, .none, .none⟩ := rfl

/-! ## C05 (one decision) -/

/-- C05. INACTIVE to WAITING needs a parent in EXECUTING (or no parent); a FINISHED parent skips an INACTIVE child; FINISHED to
INACTIVE needs a parent in WAITING. -/
theorem C05_parent_gates_child (t : NodeType) (parent : Option NState) (f : Failure) (c : Conds) :
    (∀ d, getDest t .inactive parent f c = some d → d.state = .waiting → parent = none ∨ parent = some .executing) ∧
    (parent = some .finished → getDest t .inactive parent f c = some ⟨.finished, .skipped, .none⟩) ∧
    (∀ d, getDest t .inactive parent f c = some d → parent = none ∨ parent = some .executing ∨ parent = some .finished) ∧
    (∀ d, getDest t .finished parent f c = some d → parent = some .waiting ∧ d.state = .inactive) := by
  refine ⟨?_, ?_, ?_, ?_⟩
  · intro d h hd
    rcases parent with _ | p
    · exact .inl rfl
    · cases p <;> simp [getDest, fromInactive] at h ⊢
      subst h; simp at hd
  · rintro rfl; rfl
  · intro d h
    rcases parent with _ | p
    · exact .inl rfl
    · cases p <;> simp [getDest, fromInactive] at h ⊢
  · intro d h
    simp only [getDest, fromFinished] at h
    split at h
    · rename_i hp; cases h; exact ⟨hp, rfl⟩
    · cases h

/-- C05. A list node leaves FAILING, and ends its iteration from FINISHING, only when all children are WAITING or FINISHED
(that is what its action-complete condition says, `ListNode.cc:121-138`). -/
theorem C05_list_waits_for_children (parent : Option NState) (f : Failure) (c : Conds) (s : NState) (d : Dest)
    (hs : s = .finishing ∨ s = .failing) (h : getDest .list s parent f c = some d) (hd : d.state ≠ .failing) :
    True' c.actionComplete := by
  rw [← isT_iff]
  rcases hs with rfl | rfl
  · simp only [getDest, fromFinishing, abnormal] at h
    cases hac : isT c.actionComplete
    · rw [hac] at h
      exfalso
      revert h
      (repeat' split) <;> intro h <;> first | (cases h; done) | (cases h; rename_i ha; revert ha; (repeat' split) <;> intro ha <;> first | (cases ha; done) | (cases ha; exact hd rfl))
    · rfl
  · simp only [getDest, fromFailing] at h
    cases hac : isT c.actionComplete
    · rw [hac] at h; simp at h
    · rfl

/-- Non-vacuity. -/
example : getDest .empty .inactive (some .executing) .none noConds = some ⟨.waiting, .none, .none⟩ := rfl
example : getDest .empty .inactive (some .waiting) .none noConds = none := rfl
example : getDest .list .finishing none .none { noConds with actionComplete := some (some true) } =
    some ⟨.iterationEnded, .success, .none⟩ := rfl
example : getDest .list .finishing none .none { noConds with actionComplete := some (some false) } = none := rfl

/-! ## C31 -/

/-- The conditions `getDest` reads in each state (own conditions only; the ancestor conditions are the parent's, active while the
parent is EXECUTING, FINISHING or FAILING). -/
def reads : NodeType → NState → List Slot
  | _, .waiting => [.exit, .skip, .start, .pre]
  | .empty, .executing => [.exit, .inv, .endc, .post]
  | .assignment, .executing => [.exit, .inv, .endc, .post, .actionComplete]
  | .update, .executing => [.exit, .inv, .endc, .post]
  | .command, .executing => [.exit, .inv, .endc]
  | .list, .executing => [.exit, .inv, .endc]
  | .command, .finishing => [.exit, .inv, .post, .actionComplete]
  | .list, .finishing => [.exit, .inv, .post, .actionComplete]
  | .assignment, .failing => [.abortComplete]
  | .command, .failing => [.abortComplete]
  | .update, .failing => [.actionComplete]
  | .list, .failing => [.actionComplete]
  | _, .iterationEnded => [.rep]
  | _, _ => []

/-- The other things that should be active: local variables and the body while the node runs; for a list, the conditions its
children refer to. -/
def holdsActive : NodeType → NState → List Slot
  | .empty, .executing => [.locals]
  | .list, .executing | .list, .finishing | .list, .failing => [.locals, .childExit, .childInv, .childEnd]
  | _, .executing | _, .finishing | _, .failing => [.locals, .body]
  | _, _ => []

/-- The activation count each slot should have. -/
def expected (t : NodeType) (s : NState) (x : Slot) : Nat := if x ∈ reads t s ∨ x ∈ holdsActive t s then 1 else 0

/-- `getDest` reads no other own conditions: changing the others does not change the decision. -/
theorem reads_only (t : NodeType) (s : NState) (hs : StateExists t s) (parent : Option NState) (f : Failure) (c c' : Conds)
    (hanc : c.ancExit = c'.ancExit ∧ c.ancInv = c'.ancInv ∧ c.ancEnd = c'.ancEnd)
    (h : ∀ x ∈ reads t s, match x with
      | .skip => c.skip = c'.skip | .start => c.start = c'.start | .pre => c.pre = c'.pre | .exit => c.exit = c'.exit
      | .inv => c.inv = c'.inv | .endc => c.endc = c'.endc | .post => c.post = c'.post | .rep => c.rep = c'.rep
      | .actionComplete => c.actionComplete = c'.actionComplete | .abortComplete => c.abortComplete = c'.abortComplete
      | _ => True) : getDest t s parent f c = getDest t s parent f c' := by
  obtain ⟨e1, e2, e3⟩ := hanc
  cases s <;> cases t <;>
    first
    | (simp [StateExists] at hs; done)
    | (simp [reads] at h
       simp [getDest, fromInactive, fromWaiting, fromExecuting, fromFinishing, fromFailing, fromIterationEnded, fromFinished,
        abnormal, endIteration, h, e1, e2, e3])

/-- Activation counts reachable by a node that moves along the state diagram from INACTIVE. -/
inductive Counts (t : NodeType) : NState → (Slot → Nat) → Prop
  | init : Counts t .inactive (fun _ => 0)
  | step {a b m m'} : Counts t a m → Diagram t a b → applyActs (acts t a b) m = some m' → Counts t b m'

/-- The counts, with `j` surplus activations of a command's exit condition. -/
def withLeak (t : NodeType) (s : NState) (j : Nat) (x : Slot) : Nat :=
  (if t = .command ∧ x = .exit then j else 0) + expected t s x

theorem act_step (t : NodeType) (a b : NState) (h : Diagram t a b) (j : Nat) :
    ∃ m' j', applyActs (acts t a b) (withLeak t a j) = some m' ∧ m' = withLeak t b j' ∧ (t ≠ .command → j' = j) ∧
      j ≤ j' ∧ (j' = j + 1 ↔ t = .command ∧ a = .waiting ∧ b = .executing) := by
  have key : ∃ m', applyActs (acts t a b) (withLeak t a j) = some m' ∧
      m' = withLeak t b (if t = .command ∧ a = .waiting ∧ b = .executing then j + 1 else j) := by
    cases h <;>
      first
      | (cases t <;>
          (refine ⟨_, rfl, ?_⟩; funext x; cases x <;> simp [withLeak, expected, reads, holdsActive, on, off]; done))
      | (rename_i ht; cases t <;> simp at ht <;>
          (refine ⟨_, rfl, ?_⟩; funext x; cases x <;> simp [withLeak, expected, reads, holdsActive, on, off]; done))
      | (refine ⟨_, rfl, ?_⟩; funext x; cases x <;> simp [withLeak, expected, reads, holdsActive, on, off]; done)
  obtain ⟨m', h1, h2⟩ := key
  by_cases hc : t = .command ∧ a = .waiting ∧ b = .executing
  · rw [if_pos hc] at h2
    exact ⟨m', j + 1, h1, h2, fun hn => absurd hc.1 hn, by omega, by simp [hc]⟩
  · rw [if_neg hc] at h2
    exact ⟨m', j, h1, h2, fun _ => rfl, by omega, by simp only [hc, iff_false]; omega⟩

theorem counts_leak {t s m} (h : Counts t s m) : ∃ j, m = withLeak t s j ∧ (t ≠ .command → j = 0) := by
  induction h with
  | init => exact ⟨0, by funext x; cases t <;> simp [withLeak, expected, reads, holdsActive], fun _ => rfl⟩
  | step _ hd ha ih =>
    obtain ⟨j, rfl, hj⟩ := ih
    obtain ⟨m', j', h1, h2, h3, _, _⟩ := act_step t _ _ hd j
    rw [h1] at ha
    cases ha
    exact ⟨j', h2, fun hn => (h3 hn).trans (hj hn)⟩

/-- C31 for all nodes but Command nodes: after any history along the state diagram, exactly the conditions the next decision reads,
the local variables and the body of a running node, and the conditions a running list provides to its children are active, each
exactly once; everything is inactive in INACTIVE and FINISHED. Full statement: also for Command nodes; false, see
`C31_command_exit_leaks`. -/
theorem C31_activations_balanced_partial (t : NodeType) (ht : t ≠ .command) (s : NState) (m : Slot → Nat) (h : Counts t s m) :
    m = expected t s := by
  obtain ⟨j, rfl, hj⟩ := counts_leak h
  funext x
  simp [withLeak, ht]

/-- C31, Command nodes: the same holds for everything but the Exit condition. -/
theorem C31_command_balanced_but_exit (s : NState) (m : Slot → Nat) (h : Counts .command s m) (x : Slot) (hx : x ≠ .exit) :
    m x = expected .command s x := by
  obtain ⟨j, rfl, _⟩ := counts_leak h
  simp [withLeak, hx]

/-- C31. For every node type, every condition a decision reads is active at that time, and no transition of the diagram
deactivates anything that is not active (the assertions in the code never fire). -/
theorem C31_reads_active_and_no_underflow (t : NodeType) (s : NState) (m : Slot → Nat) (h : Counts t s m) :
    (∀ x ∈ reads t s, 0 < m x) ∧ ∀ b, Diagram t s b → ∃ m', applyActs (acts t s b) m = some m' := by
  obtain ⟨j, rfl, _⟩ := counts_leak h
  refine ⟨?_, ?_⟩
  · intro x hx
    simp [withLeak, expected, hx]
  · intro b hb
    obtain ⟨m', _, h1, _⟩ := act_step t s b hb j
    exact ⟨m', h1⟩

/-- C31 is false for Command nodes: each time the node is executed its Exit condition is activated once more than it is deactivated
(`CommandNode.cc:205` activates what `NodeImpl.cc:978` has already activated), so after `n` executions an INACTIVE
command node still has its Exit condition active `n` times. -/
theorem C31_command_exit_leaks (n : Nat) : ∃ m, Counts .command .inactive m ∧ m .exit = n := by
  suffices H : Counts .command .inactive (withLeak .command .inactive n) from
    ⟨_, H, by simp [withLeak, expected, reads, holdsActive]⟩
  have go : ∀ {a b m j}, Counts .command a m → m = withLeak .command a j → Diagram .command a b →
      ∀ j', j' = (if a = .waiting ∧ b = .executing then j + 1 else j) → Counts .command b (withLeak .command b j') := by
    intro a b m j hc hm hd j' hj'
    subst hm
    obtain ⟨m', k, h1, h2, _, hle, hk⟩ := act_step .command a b hd j
    have : k = j' := by
      subst hj'
      by_cases hw : a = .waiting ∧ b = .executing
      · rw [if_pos hw]; exact hk.mpr ⟨rfl, hw.1, hw.2⟩
      · rw [if_neg hw]
        -- no surplus on other edges
        have : m' .rep = withLeak .command b k .rep := by rw [h2]
        have hex : ∃ m'', applyActs (acts .command a b) (withLeak .command a j) = some m'' ∧ m'' = withLeak .command b j := by
          cases hd <;>
            first
            | (exact absurd ⟨rfl, rfl⟩ hw)
            | (refine ⟨_, rfl, ?_⟩; funext x; cases x <;> simp [withLeak, expected, reads, holdsActive, on, off]; done)
        obtain ⟨m'', g1, g2⟩ := hex
        rw [h1] at g1
        cases g1
        have := congrFun (h2.symm.trans g2) .exit
        simpa [withLeak] using this
    subst this
    exact h2 ▸ Counts.step hc hd h1
  induction n with
  | zero =>
    have : withLeak .command .inactive 0 = fun _ => 0 := by
      funext x; simp [withLeak, expected, reads, holdsActive]
    rw [this]; exact .init
  | succ n ih =>
    have c1 := go ih rfl (Diagram.activate _) n (by simp)
    have c2 := go c1 rfl (Diagram.start _) (n + 1) (by simp)
    have c3 := go c2 rfl Diagram.commandFinishing (n + 1) (by simp)
    have c4 := go c3 rfl (Diagram.finishingEnd (.inl rfl)) (n + 1) (by simp)
    have c5 := go c4 rfl (Diagram.finish _) (n + 1) (by simp)
    exact go c5 rfl (Diagram.reset _) (n + 1) (by simp)

example : ∃ m, Counts .list .executing m := by
  obtain ⟨m1, h1⟩ := (C31_reads_active_and_no_underflow .list _ _ .init).2 _ (.activate _)
  obtain ⟨m2, h2⟩ := (C31_reads_active_and_no_underflow .list _ _ (.step .init (.activate _) h1)).2 _ (.start _)
  exact ⟨m2, .step (.step .init (.activate _) h1) (.start _) h2⟩

end Verif.Props.Node
