import Verif.Exec.Replay
/-
How queue statuses evolve in each step.
-/
namespace Verif.Exec
open Verif.Node

variable {Val Env : Type} {P : Plan Val Env}

theorem notifyQ_idem (x : QStatus) : notifyQ (notifyQ x) = notifyQ x := by cases x <;> rfl

theorem notifyAll_q (ns : List NodeId) (s : St Val Env) (k : NodeId) :
    (notifyAll ns s).q k = if k ∈ ns then notifyQ (s.q k) else s.q k := by
  unfold notifyAll
  induction ns generalizing s with
  | nil => simp
  | cons n ns ih =>
    rw [List.foldl_cons, ih]
    unfold notify
    by_cases h : k = n
    · subst h; simp only [set_self, List.mem_cons, true_or, if_true]; split
      · exact notifyQ_idem _
      · rfl
    · simp only [set_ne _ _ _ _ h, List.mem_cons, h, false_or]

/-- The situation between the two parts of a transition. -/
def midObs (P : Plan Val Env) (n : NodeId) (b : NState) (s : St Val Env) : Obs Val Env :=
  (transTo P n (s.st n) b (transFrom n (s.st n) b s)).obs

/-- The nodes notified by a transition of `n` to `b`. -/
def woken (P : Plan Val Env) (n : NodeId) (b : NState) (s : St Val Env) : List NodeId :=
  P.wake (.pre n) (midObs P n b s) ++ childrenToNotify P n b { s with st := set s.st n b } ++
    P.wake (.post n) (transition P n s).obs

theorem releaseAll_waiters' (n rs) (s : St Val Env) : (releaseAll n rs s).waiters = s.waiters := by
  unfold releaseAll
  induction rs generalizing s with
  | nil => rfl
  | cons r rs ih =>
    rw [List.foldl_cons, ih]
    unfold release; split <;> rfl

theorem transTo_q (n a b) (s : St Val Env) (k) :
    (transTo P n a b s).q k = s.q k ∨ ((transTo P n a b s).q k = availQ (s.q k) ∧ ∃ r, k ∈ s.waiters r) := by
  unfold transTo
  simp only
  have hq : ∀ x : St Val Env, (x.q = s.q ∧ x.waiters = s.waiters) → ((releaseAll n (released P n a b) x).q k = s.q k ∨
      ((releaseAll n (released P n a b) x).q k = availQ (s.q k) ∧ ∃ r, k ∈ s.waiters r)) := by
    intro x ⟨h1, h2⟩
    have := releaseAll_q n (released P n a b) x k
    rw [h1, h2] at this; exact this
  apply hq
  cases b <;> simp
  cases (P.node n).type <;> simp

theorem childrenToNotify_congr (n b) {s s' : St Val Env} (h : s.st = s'.st) :
    childrenToNotify P n b s = childrenToNotify P n b s' := by unfold childrenToNotify; rw [h]

theorem setState_q (n b) (s : St Val Env) (k) (hk : k ≠ n) :
    (setState P n b s).q k = if k ∈ childrenToNotify P n b { s with st := set s.st n b } then notifyQ (s.q k) else s.q k := by
  unfold setState
  simp only
  rw [notifyAll_q]
  split
  · rw [childrenToNotify_congr n b (s' := { s with st := set s.st n b })]
    · have : (addFinishedRoot n { s with st := set s.st n b, log := s.log ++ [.trans n (s.st n) b s.base] }).q k = s.q k := by
        unfold addFinishedRoot
        split
        · exact set_ne _ _ _ _ hk
        · split <;> rfl
      rw [this]
    · unfold addFinishedRoot
      split
      · rfl
      · split <;> rfl
  · rw [childrenToNotify_congr n b (s' := { s with st := set s.st n b }) (by rfl)]
    have : (notify n { s with st := set s.st n b, log := s.log ++ [.trans n (s.st n) b s.base] }).q k = s.q k := by
      unfold notify; exact set_ne _ _ _ _ hk
    rw [this]

theorem transition_q (n b) (s : St Val Env) (hb : s.nx n = some b) (hne : b ≠ s.st n) (k) (hk : k ≠ n) :
    ∃ x, (x = s.q k ∨ (x = availQ (s.q k) ∧ ∃ r, k ∈ s.waiters r)) ∧
      (transition P n s).q k = if k ∈ woken P n b s then notifyQ x else x := by
  have hst := transition_stages P n s b hb hne
  refine ⟨(transTo P n (s.st n) b (transFrom n (s.st n) b s)).q k, ?_, ?_⟩
  · have := transTo_q (P := P) n (s.st n) b (transFrom n (s.st n) b s) k
    have h2 : (transFrom n (s.st n) b s).waiters = s.waiters := by unfold transFrom resetNode; split <;> rfl
    rw [transFrom_q, h2] at this
    exact this
  · unfold woken midObs
    have hpost : (transition P n s).obs = (let s1 := transTo P n (s.st n) b (transFrom n (s.st n) b s)
       let s2 := notifyAll (P.wake (.pre n) s1.obs) s1
       let s3 := setOutcome n (setState P n b s2)
       let s4 := if b = .executing then execBody P n s3 else s3
       ({ s4 with nx := set s4.nx n none, nxO := set s4.nxO n .none, nxF := set s4.nxF n .none } : St Val Env).obs) := by
      rw [hst]; simp [St.obs]
    rw [hpost, hst]
    generalize hs1 : transTo P n (s.st n) b (transFrom n (s.st n) b s) = s1
    simp only
    have hs1st : s1.st = s.st := by
      rw [← hs1]; unfold transTo
      simp only [releaseAll_st]
      cases b <;> simp
      cases (P.node n).type <;> simp
    rw [notifyAll_q]
    have e1 : ({ (if b = NState.executing then execBody P n (setOutcome n (setState P n b (notifyAll (P.wake (Source.pre n) s1.obs) s1)))
          else setOutcome n (setState P n b (notifyAll (P.wake (Source.pre n) s1.obs) s1))) with
        nx := set (if b = NState.executing then execBody P n (setOutcome n (setState P n b (notifyAll (P.wake (Source.pre n) s1.obs) s1)))
          else setOutcome n (setState P n b (notifyAll (P.wake (Source.pre n) s1.obs) s1))).nx n none,
        nxO := set (if b = NState.executing then execBody P n (setOutcome n (setState P n b (notifyAll (P.wake (Source.pre n) s1.obs) s1)))
          else setOutcome n (setState P n b (notifyAll (P.wake (Source.pre n) s1.obs) s1))).nxO n .none,
        nxF := set (if b = NState.executing then execBody P n (setOutcome n (setState P n b (notifyAll (P.wake (Source.pre n) s1.obs) s1)))
          else setOutcome n (setState P n b (notifyAll (P.wake (Source.pre n) s1.obs) s1))).nxF n .none } : St Val Env).q k =
      (setState P n b (notifyAll (P.wake (Source.pre n) s1.obs) s1)).q k := by
      simp only
      split
      · rw [execBody_q, setOutcome_q]
      · rw [setOutcome_q]
    rw [e1, setState_q n b _ k hk, notifyAll_q,
      childrenToNotify_congr n b (s' := { s with st := set s.st n b }) (by simp [hs1st])]
    by_cases c1 : k ∈ P.wake (Source.pre n) s1.obs <;>
      by_cases c2 : k ∈ childrenToNotify P n b { s with st := set s.st n b } <;>
      simp [c1, c2, notifyQ_idem]

/-- The node itself is rechecked, or is a finished root. -/
theorem transition_q_self (n b) (s : St Val Env) (hb : s.nx n = some b) (hne : b ≠ s.st n) (hq : s.q n = .none ∨ s.q n = .check) :
    ((transition P n s).q n = .check ∧ ¬ (b = .finished ∧ (P.node n).anc = [])) ∨ ((transition P n s).q n = .delete ∧ b = .finished ∧ (P.node n).anc = []) := by
  rw [transition_stages P n s b hb hne]
  generalize hs1 : transTo P n (s.st n) b (transFrom n (s.st n) b s) = s1
  have hq1 : s1.q n = .none ∨ s1.q n = .check := by
    rw [← hs1]
    rcases transTo_q (P := P) n (s.st n) b (transFrom n (s.st n) b s) n with h | ⟨h, _⟩
    · rw [h, transFrom_q]; exact hq
    · rw [h, transFrom_q]; rcases hq with h | h <;> rw [h] <;> simp [availQ]
  have hq2 : (notifyAll (P.wake (.pre n) s1.obs) s1).q n = .none ∨ (notifyAll (P.wake (.pre n) s1.obs) s1).q n = .check := by
    rw [notifyAll_q]; split
    · rcases hq1 with h | h <;> rw [h] <;> simp [notifyQ]
    · exact hq1
  simp only
  generalize notifyAll (P.wake (.pre n) s1.obs) s1 = s2 at hq2
  have hq3 : ((setState P n b s2).q n = .check ∧ ¬ (b = .finished ∧ (P.node n).anc = [])) ∨ ((setState P n b s2).q n = .delete ∧ b = .finished ∧ (P.node n).anc = []) := by
    unfold setState
    simp only
    rw [notifyAll_q]
    split
    · rename_i hc
      right
      refine ⟨?_, hc⟩
      have : (addFinishedRoot n { s2 with st := set s2.st n b, log := s2.log ++ [.trans n (s2.st n) b s2.base] }).q n = .delete := by
        unfold addFinishedRoot
        rw [if_pos]
        · exact set_self _ _ _
        · exact hq2.symm
      rw [this]; simp [notifyQ]
    · rename_i hc
      left
      refine ⟨?_, hc⟩
      have : (notify n { s2 with st := set s2.st n b, log := s2.log ++ [.trans n (s2.st n) b s2.base] }).q n = .check := by
        unfold notify; simp only [set_self]
        rcases hq2 with h | h <;> rw [h] <;> rfl
      rw [this]; simp [notifyQ]
  rw [notifyAll_q]
  have hq4 : (if b = .executing then execBody P n (setOutcome n (setState P n b s2)) else setOutcome n (setState P n b s2)).q n =
      (setState P n b s2).q n := by
    split <;> simp
  simp only [hq4]
  rcases hq3 with ⟨h, h'⟩ | ⟨h, h'⟩
  · left; rw [h]; refine ⟨?_, h'⟩; simp [notifyQ]
  · right; rw [h]; refine ⟨?_, h'⟩; simp [notifyQ]

end Verif.Exec
