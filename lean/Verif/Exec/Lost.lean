import Verif.Exec.Quiet
import Verif.Exec.Run
/-
A node whose queue status says "pending" but which is in no queue stays that way forever.
-/
namespace Verif.Exec
open Verif.Node

variable {Val Env : Type} {P : Plan Val Env}

/-- The status says the node is in the pending queue (or, if `d`, is to be deleted). -/
def LostQ (d : Bool) (q : QStatus) : Prop := if d then q = .delete else q = .pending ∨ q = .pendingCheck

/-- The status says the node is in the pending queue (or, if `d`, is to be deleted), but it is in no queue. -/
def Lost (d : Bool) (n : NodeId) (s : St Val Env) : Prop := n ∉ s.pending ∧ n ∉ s.change ∧ LostQ d (s.q n)

theorem LostQ.notifyQ {d q} (h : LostQ d q) : LostQ d (notifyQ q) := by
  cases d <;> cases q <;> simp_all [LostQ, Exec.notifyQ]

theorem LostQ.ne_check {d q} (h : LostQ d q) : q ≠ .check := by
  cases d <;> cases q <;> simp_all [LostQ]

variable {d : Bool}

theorem Lost.of {s s' : St Val Env} {n} (h : Lost d n s) (h1 : n ∈ s'.pending → n ∈ s.pending) (h2 : n ∈ s'.change → n ∈ s.change)
    (h3 : s'.q n = s.q n ∨ s'.q n = notifyQ (s.q n)) : Lost d n s' := by
  refine ⟨fun e => h.1 (h1 e), fun e => h.2.1 (h2 e), ?_⟩
  rcases h3 with e | e <;> rw [e]
  · exact h.2.2
  · exact h.2.2.notifyQ

theorem Lost.notifyAll {s : St Val Env} {n} (h : Lost d n s) (ks) : Lost d n (notifyAll ks s) := by
  refine h.of (by simp) (by simp) ?_
  rw [notifyAll_q]; split
  · exact .inr rfl
  · exact .inl rfl

theorem addStateChange_mem (m n) (s : St Val Env) (hne : n ≠ m) (h : n ∈ (addStateChange m s).change) : n ∈ s.change := by
  unfold addStateChange at h
  split at h
  · rcases List.mem_append.1 h with h | h
    · exact h
    · simp at h; exact absurd h hne
  · exact h

theorem addStateChange_q_ne (m n) (s : St Val Env) (hne : n ≠ m) : (addStateChange m s).q n = s.q n := by
  unfold addStateChange; split
  · exact set_ne _ _ _ _ hne
  · rfl

theorem Lost.addStateChange {s : St Val Env} {n m} (h : Lost d n s) (hne : n ≠ m) : Lost d n (addStateChange m s) :=
  h.of (by rw [addStateChange_pending]; exact id) (addStateChange_mem m n s hne) (.inl (addStateChange_q_ne m n s hne))

theorem Lost.removePending {s : St Val Env} {n m} (h : Lost d n s) (hne : n ≠ m) : Lost d n (removePending P m s) := by
  refine h.of ?_ ?_ (.inl ?_)
  · rw [removePending_pending]; exact List.mem_of_mem_erase
  · rw [removePending_change]; exact id
  · rw [removePending_q, if_neg hne]

theorem Lost.computeNext {s : St Val Env} {n m} (h : Lost d n s) : Lost d n (computeNext P m s) :=
  h.of (by rw [computeNext_pending]; exact id) (by rw [computeNext_change]; exact id) (.inl (by rw [computeNext_q]))

theorem Lost.setQ {s : St Val Env} {n m x} (h : Lost d n s) (hne : n ≠ m) : Lost d n { s with q := set s.q m x } :=
  h.of (s' := { s with q := set s.q m x }) id id (.inl (set_ne _ _ _ _ hne))

theorem Lost.checkOne {s : St Val Env} {n m rest} (h : Lost d n s) (hne : n ≠ m) : Lost d n (checkOne P m { s with cand := rest }) := by
  have h0 : Lost d n (Exec.computeNext P m { s with cand := rest, q := set s.q m .none }) :=
    (h.of (s' := { s with cand := rest, q := set s.q m .none }) id id (.inl (set_ne _ _ _ _ hne))).computeNext
  unfold Exec.checkOne
  simp only
  split
  · exact h0
  · split
    · refine h0.of (s' := addPending P m _) ?_ id (.inl (set_ne _ _ _ _ hne))
      intro hk
      rcases (mem_insertPending m n _).1 hk with e | e
      · exact absurd e hne
      · exact e
    · exact h0.addStateChange hne

theorem Lost.eligible {s : St Val Env} {n m} (h : Lost d n s) (hne : n ≠ m) : Lost d n (eligible P m s).2.2 := by
  have h0 : Lost d n (Exec.computeNext P m s) := h.computeNext
  unfold Exec.eligible
  split
  · simp only
    split
    · exact (h0.removePending hne).setQ hne
    · split
      · exact ((h0.removePending hne).addStateChange hne).setQ hne
      · exact h0.setQ hne
  · simp only
    split
    · exact h0.removePending hne
    · split
      · exact (h0.removePending hne).addStateChange hne
      · exact h0
  · exact h
  · exact h
  · exact h.of id id (.inl rfl)

theorem Lost.collect (prio l) {s : St Val Env} {n} (h : Lost d n s) (hl : n ∉ l) : Lost d n (collect P prio l s).2.2 := by
  induction l generalizing s with
  | nil => exact h
  | cons m rest ih =>
    simp only [List.mem_cons, not_or] at hl
    simp only [Exec.collect]
    split
    · split
      · exact h.eligible hl.1
      · exact ih (h.eligible hl.1) hl.2
    · exact h

theorem Lost.attempt {s : St Val Env} (hI : Inv P s) {n m} (h : Lost d n s) (hne : n ≠ m) :
    Lost d n (if (tryAcquire P m s).1 then Exec.addStateChange m (Exec.removePending P m (tryAcquire P m s).2)
      else { (tryAcquire P m s).2 with q := set (tryAcquire P m s).2.q m .pending }) := by
  have heff := (tryAcquire_eff P m s).q n
  obtain ⟨_, _, _, _, hfr⟩ := tryAcquire_frame P m s
  have h0 : Lost d n (tryAcquire P m s).2 := by
    refine h.of (by rw [hfr]; exact id) (by rw [hfr]; exact id) (.inl ?_)
    rcases heff with e | ⟨e, r, hr | hr⟩
    · exact e
    · exact absurd (hI.Q.waitIn r n hr).1 h.1
    · exact absurd hr.1 hne
  split
  · exact (h0.removePending hne).addStateChange hne
  · exact h0.setQ hne

theorem Lost.acquireGroup (ns) {s : St Val Env} (hI : Inv P s) {n} (h : Lost d n s) (hnd : ns.Nodup) (hp : ∀ k ∈ ns, k ∈ s.pending)
    (hn : n ∉ ns) : Lost d n (acquireGroup P ns s) := by
  induction ns generalizing s with
  | nil => exact h
  | cons m ns ih =>
    obtain ⟨hm, hnd⟩ := List.nodup_cons.1 hnd
    simp only [List.mem_cons, not_or] at hn
    obtain ⟨i1, i2⟩ := hI.attempt (hp m (by simp))
    simp only [Exec.acquireGroup]
    exact ih i1 (h.attempt hI hn.1) hnd (fun k hk => i2 k (fun e => hm (e ▸ hk)) (hp k (by simp [hk]))) hn.2

theorem Lost.resolveFrom (l) {s : St Val Env} (hI : Inv P s) (hb : s.obs = s.base) {n} (h : Lost d n s) (hl : l.Nodup)
    (hp : ∀ k ∈ l, k ∈ s.pending) : Lost d n (resolveFrom P l s) := by
  generalize hlen : l.length = len
  induction len using Nat.strongRecOn generalizing l s with
  | _ len ih =>
    cases l with
    | nil => rw [Exec.resolveFrom]; exact h
    | cons m rest =>
      rw [Exec.resolveFrom]
      have hnl : n ∉ m :: rest := fun hn => h.1 (hp n hn)
      have hc := collect_spec (P.node m).priority (m :: rest) hI hb hl hp
      have hH := h.collect (P := P) (P.node m).priority (m :: rest) hnl
      have hlt : (Exec.collect P (P.node m).priority (m :: rest) s).2.1.length < (m :: rest).length := by
        simp only [Exec.collect, if_true]
        split
        · simp
        · have := collect_length P (P.node m).priority rest (Exec.eligible P m s).2.2
          simp only [List.length_cons]
          omega
      generalize Exec.collect P (P.node m).priority (m :: rest) s = t at hc hlt hH
      obtain ⟨g1, g2, g3, _, g5, g6, g7, g8⟩ := hc
      obtain ⟨a1, a2, a3, a4⟩ := acquireGroup_spec t.1 g1 g6 (fun k hk => (g5 k hk).2)
      exact ih t.2.1.length (by omega) t.2.1 a1 (by rw [a2, a3, g2, g3, hb])
        (hH.acquireGroup t.1 g1 g6 (fun k hk => (g5 k hk).2) (fun hn => hnl (g5 n hn).1)) g8
        (fun k hk => a4 k (g7 k hk).2.2 (g7 k hk).2.1) rfl

theorem Lost.transOne {s : St Val Env} (hI : Inv P s) {n m rest} (h : Lost d n s) (hc : s.change = m :: rest) :
    Lost d n (transOne P m { s with change := rest }) ∧ (transOne P m { s with change := rest }).st n = s.st n := by
  have hne : n ≠ m := fun e => h.2.1 (by rw [hc, e]; simp)
  obtain ⟨dd, o, oo, hd, hos, hnx, hdiag, _⟩ := transOne_fields hI hc
  have hned : dd.state ≠ s.st m := by
    intro e; rw [e] at hdiag
    generalize hb : s.st m = b at hdiag
    generalize hx : s.st m = c at hdiag
    rw [hb] at hx; subst hx
    generalize (P.node m).type = t at hdiag
    generalize hy : b = b' at hdiag
    cases hdiag
  have key : ∀ s1 : St Val Env, s1.nx = s.nx → s1.st = s.st → s1.pending = s.pending → s1.change = rest → s1.waiters = s.waiters →
      s1.q n = s.q n → Lost d n (transition P m s1) ∧ (transition P m s1).st n = s.st n := by
    intro s1 g1 g2 g3 g4 g5 g6
    have hb : s1.nx m = some dd.state := by rw [g1]; exact hnx
    have hn1 : dd.state ≠ s1.st m := by rw [g2]; exact hned
    refine ⟨h.of ?_ ?_ ?_, ?_⟩
    · rw [transition_pending P m s1 _ hb hn1, g3]; exact id
    · rw [transition_change P m s1 _ hb hn1, g4, hc]; intro hh; simp [hh]
    · obtain ⟨x, hx, hx2⟩ := transition_q (P := P) m dd.state s1 hb hn1 n hne
      have : x = s.q n := by
        rcases hx with e | ⟨_, r, hr⟩
        · rw [e, g6]
        · rw [g5] at hr; exact absurd (hI.Q.waitIn r n hr).1 h.1
      rw [hx2, this]; split
      · exact .inr rfl
      · exact .inl rfl
    · rw [transition_st P m s1 _ hb hn1, set_ne _ _ _ _ hne, g2]
  unfold Exec.transOne
  apply key
  · simp only; split <;> rfl
  · simp only; split <;> rfl
  · simp only; split <;> rfl
  · simp only; split <;> rfl
  · simp only; split <;> rfl
  · simp only; split
    · unfold notify; simp only [set_ne _ _ _ _ hne]
    · exact set_ne _ _ _ _ hne

theorem Lost.finishStep {s : St Val Env} {n} (h : Lost d n s) (acc rej) : Lost d n (finishStep P acc rej s) := by
  have ha : ∀ (s : St Val Env) k, Lost d n s → Lost d n (assignExec P s k) := by
    intro s k hs
    unfold assignExec
    refine Lost.notifyAll ?_ _
    exact hs.of id id (.inl rfl)
  have hr : ∀ (s : St Val Env) k, Lost d n s → Lost d n (assignRetract P s k) := by
    intro s k hs
    unfold assignRetract
    refine Lost.notifyAll ?_ _
    exact hs.of id id (.inl rfl)
  have hf : ∀ (f : St Val Env → NodeId → St Val Env), (∀ s k, Lost d n s → Lost d n (f s k)) → ∀ (l : List NodeId) (s : St Val Env),
      Lost d n s → Lost d n (l.foldl f s) := by
    intro f hf l
    induction l with
    | nil => intro s hs; exact hs
    | cons k l ih => intro s hs; exact ih _ (hf s k hs)
  have h1 := hf _ ha s.asg s h
  have h2 : Lost d n { s.asg.foldl (assignExec P) s with asg := [] } := h1.of (s' := { s.asg.foldl (assignExec P) s with asg := [] }) id id (.inl rfl)
  exact (hf _ hr (s.asg.foldl (assignExec P) s).ret _ h2).of (s' := Exec.finishStep P acc rej s) id id (.inl rfl)

/-- Once lost, always lost, and the node never changes state again. -/
theorem Lost.step {ph ph' : Phase} {s s' : St Val Env} (hr : Reach P ph s) {n} (h : Lost d n s) (hs : Step P (ph, s) (ph', s')) :
    Lost d n s' ∧ s'.st n = s.st n := by
  obtain ⟨hI, _, hchk⟩ := hr.inv
  cases hs with
  | ext _ e ns => exact ⟨(h.of (s' := { s with env := e }) id id (.inl rfl)).notifyAll ns, by simp⟩
  | ackUpd _ m =>
    unfold ackUpdate
    split
    · refine ⟨Lost.notifyAll ?_ _, by simp⟩
      exact h.of id id (.inl rfl)
    · exact ⟨h, rfl⟩
  | deletePlans _ => exact ⟨h.of id id (.inl rfl), rfl⟩
  | begin _ => exact ⟨h.of id id (.inl rfl), rfl⟩
  | check _ m rest hc =>
    have hne : n ≠ m := by
      intro e; subst e
      have := (hI.Q.candIff n).1 (by rw [hc]; simp)
      exact h.2.2.ne_check this
    refine ⟨h.checkOne hne, ?_⟩
    obtain ⟨e, _⟩ := (checkOne_frame (P := P) m rest s).fields
    rw [e]
  | resolve _ hc hne =>
    obtain ⟨e, _⟩ := (resolve_frame (P := P) s).fields
    exact ⟨h.resolveFrom _ hI (hchk rfl) hI.Q.pendingNodup (fun _ hk => hk), by rw [e]⟩
  | trans _ m rest hc => exact h.transOne hI hc
  | again _ hc hn hne => exact ⟨h.of id id (.inl rfl), rfl⟩
  | finishQuiet _ acc rej hc hne hp =>
    obtain ⟨e, _⟩ := (resolve_frame (P := P) s).fields
    have h1 : Lost d n (Exec.resolve P s) := h.resolveFrom _ hI (hchk rfl) hI.Q.pendingNodup (fun _ hk => hk)
    exact ⟨h1.finishStep acc rej, by rw [(finishStep_fields (P := P) _ acc rej).1, e]⟩
  | finish _ acc rej hc hne hp => exact ⟨h.finishStep acc rej, by rw [(finishStep_fields (P := P) _ acc rej).1]⟩

/-! ## Finished roots -/

/-- The moving node itself, when it is a root that finishes. -/
theorem transOne_root {s : St Val Env} (hI : Inv P s) {m rest} (hc : s.change = m :: rest)
    (hf : (transOne P m { s with change := rest }).st m = .finished) (hroot : (P.node m).anc = []) :
    Lost true m (transOne P m { s with change := rest }) := by
  obtain ⟨dd, o, oo, hd, hos, hnx, hdiag, _⟩ := transOne_fields hI hc
  obtain ⟨hI', _, _⟩ := hI.transOne hc
  have hned : dd.state ≠ s.st m := by
    intro e; rw [e] at hdiag
    generalize hb : s.st m = b at hdiag
    generalize hx : s.st m = c at hdiag
    rw [hb] at hx; subst hx
    generalize (P.node m).type = t at hdiag
    generalize hy : b = b' at hdiag
    cases hdiag
  have hnd := hI.Q.changeNodup
  rw [hc] at hnd
  have hnp := hI.Q.disj m (by rw [hc]; simp)
  have key : ∀ s1 : St Val Env, s1.nx = s.nx → s1.st = s.st → s1.pending = s.pending → s1.change = rest →
      (s1.q m = .none ∨ s1.q m = .check) → (transition P m s1).st m = .finished → Lost true m (transition P m s1) := by
    intro s1 g1 g2 g3 g4 g5 g6
    have hb : s1.nx m = some dd.state := by rw [g1]; exact hnx
    have hn1 : dd.state ≠ s1.st m := by rw [g2]; exact hned
    rw [transition_st P m s1 _ hb hn1, set_self] at g6
    refine ⟨by rw [transition_pending P m s1 _ hb hn1, g3]; exact hnp,
      by rw [transition_change P m s1 _ hb hn1, g4]; exact (List.nodup_cons.1 hnd).1, ?_⟩
    rcases transition_q_self (P := P) m dd.state s1 hb hn1 g5 with g | g
    · exact absurd ⟨g6, hroot⟩ g.2
    · exact g.1
  unfold Exec.transOne at hf ⊢
  refine key _ ?_ ?_ ?_ ?_ ?_ hf
  · simp only; split <;> rfl
  · simp only; split <;> rfl
  · simp only; split <;> rfl
  · simp only; split <;> rfl
  · simp only; split
    · unfold notify; simp [notifyQ]
    · left; exact set_self _ _ _

/-- A finished root is in no queue. -/
theorem Reach.finishedRoot {ph : Phase} {s : St Val Env} (h : Reach P ph s) {n : NodeId} (hroot : (P.node n).anc = [])
    (hf : s.st n = .finished) : Lost true n s := by
  induction h with
  | init vars env => cases hf
  | @step ph ph' s s' hr hs ih =>
    by_cases hb : s.st n = .finished
    · exact ((ih hb).step hr hs).1
    · obtain ⟨hI, _, hchk⟩ := hr.inv
      cases hs with
      | ext _ e ns => simp at hf; exact absurd hf hb
      | ackUpd _ m =>
        unfold ackUpdate at hf
        split at hf
        · simp at hf; exact absurd hf hb
        · exact absurd hf hb
      | deletePlans _ => exact absurd hf hb
      | begin _ => exact absurd hf hb
      | check _ m rest hc =>
        obtain ⟨e, _⟩ := (checkOne_frame (P := P) m rest s).fields
        rw [e] at hf; exact absurd hf hb
      | resolve _ hc hne =>
        obtain ⟨e, _⟩ := (resolve_frame (P := P) s).fields
        rw [e] at hf; exact absurd hf hb
      | trans _ m rest hc =>
        by_cases hnm : n = m
        · subst hnm; exact transOne_root hI hc hf hroot
        · exfalso
          obtain ⟨dd, o, oo, hd, hos, hnx, hdiag, _, hst, _⟩ := transOne_fields hI hc
          rw [hst, set_ne _ _ _ _ hnm] at hf
          exact hb hf
      | again _ hc hn hne => exact absurd hf hb
      | finishQuiet _ acc rej hc hne hp =>
        obtain ⟨e, _⟩ := (resolve_frame (P := P) s).fields
        rw [(finishStep_fields (P := P) _ acc rej).1, e] at hf
        exact absurd hf hb
      | finish _ acc rej hc hne hp =>
        rw [(finishStep_fields (P := P) _ acc rej).1] at hf
        exact absurd hf hb

end Verif.Exec
