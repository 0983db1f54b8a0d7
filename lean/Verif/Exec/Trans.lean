import Verif.Exec.Frame
/-
The effect of `transition` on each field of the state.
-/
namespace Verif.Exec
open Verif.Node

variable {Val Env : Type} (P : Plan Val Env)

theorem release_holder (r : Res) (n : NodeId) (s : St Val Env) (x : Res) :
    (release r n s).holder x = if x = r ∧ s.holder x = some n then none else s.holder x := by
  unfold release
  by_cases hc : s.holder r = some n
  · rw [if_pos hc]
    simp only [set_apply]
    by_cases e : x = r
    · subst e; simp [hc]
    · simp [e]
  · rw [if_neg hc]
    by_cases e : x = r
    · subst e; simp [hc]
    · simp [e]

theorem releaseAll_holder (n : NodeId) (rs : List Res) (s : St Val Env) (x : Res) :
    (releaseAll n rs s).holder x = if x ∈ rs ∧ s.holder x = some n then none else s.holder x := by
  unfold releaseAll
  induction rs generalizing s with
  | nil => simp
  | cons r rs ih =>
    simp only [List.foldl_cons]
    rw [ih, release_holder]
    by_cases e : x = r <;> by_cases e2 : s.holder x = some n <;> by_cases e3 : x ∈ rs <;> simp_all

theorem releaseAll_q (n : NodeId) (rs : List Res) (s : St Val Env) (k : NodeId) :
    (releaseAll n rs s).q k = s.q k ∨ ((releaseAll n rs s).q k = availQ (s.q k) ∧ ∃ r, k ∈ s.waiters r) := by
  unfold releaseAll
  induction rs generalizing s with
  | nil => exact .inl rfl
  | cons r rs ih =>
    simp only [List.foldl_cons]
    have h1 : (release r n s).q k = s.q k ∨ ((release r n s).q k = availQ (s.q k) ∧ ∃ r, k ∈ s.waiters r) := by
      unfold release
      split
      · by_cases hk : k ∈ s.waiters r
        · right; simp only [hk, if_true]; exact ⟨trivial, r, hk⟩
        · left; simp [hk]
      · exact .inl rfl
    rcases ih (release r n s) with h | ⟨h, r', hr'⟩
    · rw [h]; exact h1
    · rw [release_waiters] at hr'
      refine .inr ⟨?_, r', hr'⟩
      rcases h1 with h1 | ⟨h1, _⟩
      · rw [h, h1]
      · rw [h, h1, availQ_idem]

theorem transTo_holder (n a b) (s : St Val Env) : (transTo P n a b s).holder = (releaseAll n (released P n a b) s).holder := by
  funext x
  unfold transTo
  rw [releaseAll_holder, releaseAll_holder]
  cases b <;> simp only [initLocals_holder]
  cases (P.node n).type <;> rfl

/-- The state in which the initial part of a transition leaves local variables and acknowledgements. -/
def enterVars (n : NodeId) (b : NState) (s : St Val Env) : Nat → Val :=
  if b = .executing then (initLocals (P.node n).locals { s with ack := set s.ack n false }).vars else s.vars

section
variable (n : NodeId) (s : St Val Env) (b : NState)

/-- All stages of a real transition. -/
theorem transition_stages (hb : s.nx n = some b) (hne : b ≠ s.st n) :
    transition P n s =
      (let s1 := transTo P n (s.st n) b (transFrom n (s.st n) b s)
       let s2 := notifyAll (P.wake (.pre n) s1.obs) s1
       let s3 := setOutcome n (setState P n b s2)
       let s4 := if b = .executing then execBody P n s3 else s3
       let s5 := { s4 with nx := set s4.nx n none, nxO := set s4.nxO n .none, nxF := set s4.nxF n .none }
       notifyAll (P.wake (.post n) s5.obs) s5) := by
  unfold transition
  rw [hb]
  simp only [hne, if_false]

/-- The state in which the body starts. -/
def bodyState (b : NState) (s : St Val Env) : St Val Env :=
  let s1 := transTo P n (s.st n) b (transFrom n (s.st n) b s)
  setOutcome n (setState P n b (notifyAll (P.wake (.pre n) s1.obs) s1))

/-- What can be observed when the body starts. -/
def atStart (b : NState) (s : St Val Env) : Obs Val Env := (activateBody P n (bodyState P n b s)).obs

end

section
variable (n : NodeId) (s : St Val Env) (b : NState)
variable (hb : s.nx n = some b) (hne : b ≠ s.st n)
include hb hne

theorem transition_st : (transition P n s).st = set s.st n b := by
  rw [transition_stages P n s b hb hne]; simp only [notifyAll_st]
  split <;> simp [setState_st]

theorem transition_nx : (transition P n s).nx = set s.nx n none := by
  rw [transition_stages P n s b hb hne]; simp only [notifyAll_nx]
  split <;> simp
theorem transition_nxO : (transition P n s).nxO = set s.nxO n .none := by
  rw [transition_stages P n s b hb hne]; simp only [notifyAll_nxO]
  split <;> simp
theorem transition_nxF : (transition P n s).nxF = set s.nxF n .none := by
  rw [transition_stages P n s b hb hne]; simp only [notifyAll_nxF]
  split <;> simp
theorem transition_change : (transition P n s).change = s.change := by
  rw [transition_stages P n s b hb hne]; simp only [notifyAll_change]
  split <;> simp
theorem transition_pending : (transition P n s).pending = s.pending := by
  rw [transition_stages P n s b hb hne]; simp only [notifyAll_pending]
  split <;> simp
theorem transition_waiters : (transition P n s).waiters = s.waiters := by
  rw [transition_stages P n s b hb hne]; simp only [notifyAll_waiters]
  split <;> simp
theorem transition_base : (transition P n s).base = s.base := by
  rw [transition_stages P n s b hb hne]; simp only [notifyAll_base]
  split <;> simp
theorem transition_holder : (transition P n s).holder = (releaseAll n (released P n (s.st n) b) s).holder := by
  rw [transition_stages P n s b hb hne]; simp only [notifyAll_holder]
  split <;> simp [transTo_holder] <;> (funext x; rw [releaseAll_holder, releaseAll_holder]; simp)
theorem transition_log : (transition P n s).log =
    s.log ++ .trans n (s.st n) b s.base :: (if b = .executing then [.start n (atStart P n b s)] else []) := by
  rw [transition_stages P n s b hb hne]; simp only [notifyAll_log]
  split
  · rename_i hex
    simp only [execBody_log]
    show (bodyState P n b s).log ++ [.start n (atStart P n b s)] = _
    simp [bodyState, setState_log]
  · simp [setState_log]
theorem transition_vars : (transition P n s).vars = enterVars P n b (transFrom n (s.st n) b s) := by
  rw [transition_stages P n s b hb hne]; simp only [notifyAll_vars]
  have : (transTo P n (s.st n) b (transFrom n (s.st n) b s)).vars = enterVars P n b (transFrom n (s.st n) b s) := by
    unfold transTo enterVars
    rw [releaseAll_vars]
    cases b <;> simp
    cases (P.node n).type <;> simp
  split <;> simp [this]
theorem transition_fixed : (transition P n s).fixed =
    if b = .executing ∧ ((P.node n).type = .assignment ∨ (P.node n).type = .command ∨ (P.node n).type = .update) then
      set s.fixed n ((P.node n).rhs (atStart P n b s)) else s.fixed := by
  rw [transition_stages P n s b hb hne]; simp only [notifyAll_fixed]
  by_cases hex : b = .executing
  · simp only [hex, if_true]
    subst hex
    change (execBody P n (bodyState P n .executing s)).fixed = _
    have hf : (bodyState P n .executing s).fixed = s.fixed := by simp [bodyState]
    unfold execBody
    cases ht : (P.node n).type <;> simp [atStart, activateBody, hf]
  · simp [hex]
theorem transition_saved : (transition P n s).saved =
    if b = .executing ∧ (P.node n).type = .assignment then set s.saved (P.node n).dest ((atStart P n b s).vars (P.node n).dest)
    else s.saved := by
  rw [transition_stages P n s b hb hne]; simp only [notifyAll_saved]
  by_cases hex : b = .executing
  · simp only [hex, if_true]
    subst hex
    change (execBody P n (bodyState P n .executing s)).saved = _
    have hf : (bodyState P n .executing s).saved = s.saved := by simp [bodyState]
    unfold execBody
    cases ht : (P.node n).type <;> simp [atStart, activateBody, hf, St.obs]
  · simp [hex]
theorem transition_asg : (transition P n s).asg =
    s.asg ++ if b = .executing ∧ (P.node n).type = .assignment then [n] else [] := by
  rw [transition_stages P n s b hb hne]; simp only [notifyAll_asg]
  by_cases hex : b = .executing
  · simp only [hex, if_true]
    subst hex
    change (execBody P n (bodyState P n .executing s)).asg = _
    have hf : (bodyState P n .executing s).asg = s.asg := by simp [bodyState]
    unfold execBody
    cases ht : (P.node n).type <;> simp [activateBody, hf]
  · simp [hex]
theorem transition_cmds : (transition P n s).cmds =
    s.cmds ++ if b = .executing ∧ (P.node n).type = .command then [n] else [] := by
  rw [transition_stages P n s b hb hne]; simp only [notifyAll_cmds]
  by_cases hex : b = .executing
  · simp only [hex, if_true]
    subst hex
    change (execBody P n (bodyState P n .executing s)).cmds = _
    have hf : (bodyState P n .executing s).cmds = s.cmds := by simp [bodyState]
    unfold execBody
    cases ht : (P.node n).type <;> simp [activateBody, hf]
  · simp [hex]
theorem transition_upds : (transition P n s).upds =
    s.upds ++ if b = .executing ∧ (P.node n).type = .update then [n] else [] := by
  rw [transition_stages P n s b hb hne]; simp only [notifyAll_upds]
  by_cases hex : b = .executing
  · simp only [hex, if_true]
    subst hex
    change (execBody P n (bodyState P n .executing s)).upds = _
    have hf : (bodyState P n .executing s).upds = s.upds := by simp [bodyState]
    unfold execBody
    cases ht : (P.node n).type <;> simp [activateBody, hf]
  · simp [hex]
theorem transition_ret : (transition P n s).ret =
    s.ret ++ if b = .failing ∧ (P.node n).type = .assignment then [n] else [] := by
  rw [transition_stages P n s b hb hne]; simp only [notifyAll_ret]
  have : (transTo P n (s.st n) b (transFrom n (s.st n) b s)).ret =
      s.ret ++ if b = .failing ∧ (P.node n).type = .assignment then [n] else [] := by
    unfold transTo
    rw [releaseAll_ret]
    cases b <;> simp
    cases (P.node n).type <;> simp
  split <;> simp [this]
theorem transition_aborts : (transition P n s).aborts =
    s.aborts ++ if b = .failing ∧ (P.node n).type = .command then [n] else [] := by
  rw [transition_stages P n s b hb hne]; simp only [notifyAll_aborts]
  have : (transTo P n (s.st n) b (transFrom n (s.st n) b s)).aborts =
      s.aborts ++ if b = .failing ∧ (P.node n).type = .command then [n] else [] := by
    unfold transTo
    rw [releaseAll_aborts]
    cases b <;> simp
    cases (P.node n).type <;> simp
  split <;> simp [this]
theorem transition_ack : (transition P n s).ack = if b = .executing then set s.ack n false else s.ack := by
  rw [transition_stages P n s b hb hne]; simp only [notifyAll_ack]
  have : (transTo P n (s.st n) b (transFrom n (s.st n) b s)).ack = if b = .executing then set s.ack n false else s.ack := by
    unfold transTo
    rw [releaseAll_ack]
    cases b <;> simp
    cases (P.node n).type <;> simp
  split <;> simp_all
theorem transition_abort : (transition P n s).abort =
    if b = .failing ∧ (P.node n).type = .assignment then set s.abort n false else s.abort := by
  rw [transition_stages P n s b hb hne]; simp only [notifyAll_abort]
  have : (transTo P n (s.st n) b (transFrom n (s.st n) b s)).abort =
      if b = .failing ∧ (P.node n).type = .assignment then set s.abort n false else s.abort := by
    unfold transTo
    rw [releaseAll_abort]
    cases b <;> simp
    cases (P.node n).type <;> simp
  split <;> simp [this]
/-- Outcome and failure type after the transition. -/
theorem transition_out (k : NodeId) : (transition P n s).out k =
    if k = n then (if s.nxO n ≠ .none then s.nxO n
      else if (s.st n = .iterationEnded ∧ b = .waiting) ∨ s.st n = .finished then .none else s.out n) else s.out k := by
  rw [transition_stages P n s b hb hne]; simp only [notifyAll_out]
  have key : (setOutcome n (setState P n b (notifyAll (P.wake (.pre n) (transTo P n (s.st n) b (transFrom n (s.st n) b s)).obs)
      (transTo P n (s.st n) b (transFrom n (s.st n) b s))))).out k =
    if k = n then (if s.nxO n ≠ .none then s.nxO n
      else if (s.st n = .iterationEnded ∧ b = .waiting) ∨ s.st n = .finished then .none else s.out n) else s.out k := by
    simp only [setOutcome, setState_nxO, setState_out, notifyAll_nxO, notifyAll_out, transTo_nxO, transTo_out, transFrom_nxO]
    by_cases hk : k = n
    · subst hk
      by_cases hO : s.nxO k = .none
      · simp only [hO, if_true]
        unfold transFrom; split
        · simp [resetNode]
        · simp
      · simp [hO]
    · by_cases hO : s.nxO n = .none
      · simp only [hO, if_true, hk, if_false]
        unfold transFrom; split
        · simp [resetNode, hk]
        · rfl
      · simp only [hO, if_false, hk]
        simp only [set_ne _ _ _ _ hk]
        unfold transFrom; split
        · simp [resetNode, hk]
        · rfl
  split
  · simp only [execBody_out]; exact key
  · exact key

theorem transition_fail (k : NodeId) : (transition P n s).fail k =
    if k = n then (if s.nxO n ≠ .none ∧ s.nxF n ≠ .none then s.nxF n
      else if (s.st n = .iterationEnded ∧ b = .waiting) ∨ s.st n = .finished then .none else s.fail n) else s.fail k := by
  rw [transition_stages P n s b hb hne]; simp only [notifyAll_fail]
  have key : (setOutcome n (setState P n b (notifyAll (P.wake (.pre n) (transTo P n (s.st n) b (transFrom n (s.st n) b s)).obs)
      (transTo P n (s.st n) b (transFrom n (s.st n) b s))))).fail k =
    if k = n then (if s.nxO n ≠ .none ∧ s.nxF n ≠ .none then s.nxF n
      else if (s.st n = .iterationEnded ∧ b = .waiting) ∨ s.st n = .finished then .none else s.fail n) else s.fail k := by
    simp only [setOutcome, setState_nxO, setState_nxF, setState_fail, notifyAll_nxO, notifyAll_nxF, notifyAll_fail, transTo_nxO, transTo_nxF, transTo_fail,
      transFrom_nxO, transFrom_nxF]
    have hiff : (s.nxO n ≠ .none ∧ s.nxF n ≠ .none) ↔ ¬ (s.nxO n = .none ∨ s.nxF n = .none) := by
      rw [not_or]
    simp only [hiff]
    by_cases hk : k = n
    · subst hk
      by_cases hO : s.nxO k = .none ∨ s.nxF k = .none
      · simp only [hO, if_true]
        unfold transFrom; split
        · simp [resetNode]
        · simp
      · simp [hO]
    · by_cases hO : s.nxO n = .none ∨ s.nxF n = .none
      · simp only [hO, if_true, hk, if_false]
        unfold transFrom; split
        · simp [resetNode, hk]
        · rfl
      · simp only [hO, if_false, hk]
        simp only [set_ne _ _ _ _ hk]
        unfold transFrom; split
        · simp [resetNode, hk]
        · rfl
  split
  · simp only [execBody_fail]; exact key
  · exact key

end

end Verif.Exec
