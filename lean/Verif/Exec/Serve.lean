import Verif.Exec.Sync
/-
Nodes waiting for resources are served.
-/
set_option linter.unusedSimpArgs false
namespace Verif.Exec
open Verif.Node

variable {Val Env : Type} {P : Plan Val Env}

/-! ## The state change queue only grows while resources are given out -/

theorem eligible_change (n k) (s : St Val Env) (h : k ∈ s.change) : k ∈ (eligible P n s).2.2.change := by
  have h1 : (removePending P n (computeNext P n s)).change = s.change := by rw [removePending_change, computeNext_change]
  unfold eligible
  split <;> simp only
  · split
    · simp only [h1]; exact h
    · split
      · simp only; exact addStateChange_change _ _ _ (by rw [h1]; exact h)
      · simp only [computeNext_change]; exact h
  · split
    · simp only [h1]; exact h
    · split
      · simp only; exact addStateChange_change _ _ _ (by rw [h1]; exact h)
      · simp only [computeNext_change]; exact h
  · exact h
  · exact h
  · exact h

theorem collect_change (prio l k) (s : St Val Env) (h : k ∈ s.change) : k ∈ (collect P prio l s).2.2.change := by
  induction l generalizing s with
  | nil => exact h
  | cons n rest ih =>
    simp only [collect]
    split
    · split
      · exact eligible_change n k s h
      · exact ih _ (eligible_change n k s h)
    · exact h

/-- One attempt. -/
def attempt (P : Plan Val Env) (n : NodeId) (s : St Val Env) : St Val Env :=
  if (tryAcquire P n s).1 then addStateChange n (removePending P n (tryAcquire P n s).2)
  else { (tryAcquire P n s).2 with q := set (tryAcquire P n s).2.q n .pending }

theorem acquireGroup_cons (n ns) (s : St Val Env) : acquireGroup P (n :: ns) s = acquireGroup P ns (attempt P n s) := rfl

theorem attempt_change (n k) (s : St Val Env) (h : k ∈ s.change) : k ∈ (attempt P n s).change := by
  have h1 : (tryAcquire P n s).2.change = s.change := by obtain ⟨_, _, _, _, e⟩ := tryAcquire_frame P n s; rw [e]
  unfold attempt
  split
  · exact addStateChange_change _ _ _ (by rw [removePending_change, h1]; exact h)
  · show k ∈ (tryAcquire P n s).2.change
    rw [h1]; exact h

theorem acquireGroup_change (l k) (s : St Val Env) (h : k ∈ s.change) : k ∈ (acquireGroup P l s).change := by
  induction l generalizing s with
  | nil => exact h
  | cons n l ih => rw [acquireGroup_cons]; exact ih _ (attempt_change n k s h)

theorem resolveFrom_lt (n rest) (s : St Val Env) :
    (collect P (P.node n).priority (n :: rest) s).2.1.length < (n :: rest).length := by
  simp only [collect, if_true]
  split
  · simp
  · have := collect_length P (P.node n).priority rest (eligible P n s).2.2
    simp only [List.length_cons]
    omega

theorem resolveFrom_change (l k) (s : St Val Env) (h : k ∈ s.change) : k ∈ (resolveFrom P l s).change := by
  generalize hlen : l.length = len
  induction len using Nat.strongRecOn generalizing l s with
  | _ len ih =>
    cases l with
    | nil => rw [resolveFrom]; exact h
    | cons n rest =>
      rw [resolveFrom]
      have := resolveFrom_lt (P := P) n rest s
      exact ih _ (by omega) _ _ (acquireGroup_change _ k _ (collect_change _ _ k s h)) rfl

/-! ## Serving -/

theorem collect_plain (prio l) (s : St Val Env) (h : ∀ k ∈ l, Plain (s.q k)) :
    ∃ pre suf, l = pre ++ suf ∧ collect P prio l s = (pre.filter (fun k => decide (s.q k = .pendingTry)), suf, s) := by
  induction l with
  | nil => exact ⟨[], [], rfl, rfl⟩
  | cons n rest ih =>
    simp only [collect]
    split
    · obtain ⟨pre, suf, e1, e2⟩ := ih (fun k hk => h k (by simp [hk]))
      refine ⟨n :: pre, suf, by rw [e1]; rfl, ?_⟩
      have hs : (eligible P n s).2.1 = false ∧ (eligible P n s).2.2 = s ∧ (eligible P n s).1 = decide (s.q n = .pendingTry) := by
        rcases h n (by simp) with g | g <;> simp [eligible, g]
      obtain ⟨s1, s2, s3⟩ := hs
      simp only [s1, s2, s3, e2, List.filter_cons]
      simp
    · exact ⟨[], n :: rest, rfl, by simp⟩

theorem attempt_q (n k) (s : St Val Env) (hk : k ≠ n) : (attempt P n s).q k = s.q k ∨ (attempt P n s).q k = availQ (s.q k) := by
  have h1 := (tryAcquire_eff P n s).q k
  have h2 : (attempt P n s).q k = (tryAcquire P n s).2.q k := by
    unfold attempt
    split
    · rw [addStateChange_q _ _ _ (by rw [removePending_q]; simp), if_neg hk, removePending_q, if_neg hk]
    · exact set_ne _ _ _ _ hk
  rw [h2]
  rcases h1 with g | ⟨g, _⟩
  · exact .inl g
  · exact .inr g

theorem attempt_holder (n r) (s : St Val Env) (hr : r ∉ resources P n) (h : s.holder r = none) : (attempt P n s).holder r = none := by
  have h2 : (attempt P n s).holder r = (tryAcquire P n s).2.holder r := by
    unfold attempt
    split
    · rw [addStateChange_holder, removePending_holder]
    · rfl
  rw [h2]
  obtain ⟨_, g2, g3⟩ := tryAcquire_spec P n s
  cases hs : (tryAcquire P n s).1 with
  | true => rw [g2 hs, if_neg hr]; exact h
  | false =>
    rcases (g3 hs).2.2 r with g | ⟨g, _⟩
    · rw [g]; exact h
    · exact g

theorem plain_avail {x : QStatus} (h : Plain x) : Plain (availQ x) := by rcases h with rfl | rfl <;> simp [availQ, Plain]

/-- Node `k` waits, was told to try, and can have all it needs. -/
structure Servable (P : Plan Val Env) (s : St Val Env) (n : NodeId) : Prop where
  q : s.q n = .pendingTry
  nodup : (resources P n).Nodup
  free : ∀ r ∈ resources P n, s.holder r = none

theorem attempt_keeps {s : St Val Env} {m n} (h : Servable P s n) (hmn : n ≠ m) (hd : ∀ r ∈ resources P m, r ∉ resources P n) :
    Servable P (attempt P m s) n := by
  refine ⟨?_, h.nodup, fun r hr => attempt_holder m r s (fun hm => hd r hm hr) (h.free r hr)⟩
  rcases attempt_q (P := P) m n s hmn with g | g <;> rw [g, h.q]; rfl

theorem attempt_serves {s : St Val Env} {n} (h : Servable P s n) : n ∈ (attempt P n s).change := by
  have h1 : (tryAcquire P n s).1 = true := (tryAcquire_spec P n s).1.2 ⟨h.nodup, h.free⟩
  unfold attempt
  rw [if_pos h1]
  unfold addStateChange
  rw [if_pos (by rw [removePending_q]; simp)]
  simp

theorem acquireGroup_keeps (l) {s : St Val Env} {n} (h : Servable P s n) (hn : n ∉ l)
    (hd : ∀ m ∈ l, ∀ r ∈ resources P m, r ∉ resources P n) : Servable P (acquireGroup P l s) n := by
  induction l generalizing s with
  | nil => exact h
  | cons m l ih =>
    rw [acquireGroup_cons]
    simp only [List.mem_cons, not_or] at hn
    exact ih (attempt_keeps h hn.1 (hd m (by simp))) hn.2 (fun k hk => hd k (by simp [hk]))

theorem acquireGroup_serves (l1 l2) {s : St Val Env} {n} (h : Servable P s n) (hn : n ∉ l1)
    (hd : ∀ m ∈ l1, ∀ r ∈ resources P m, r ∉ resources P n) : n ∈ (acquireGroup P (l1 ++ n :: l2) s).change := by
  induction l1 generalizing s with
  | nil => rw [List.nil_append, acquireGroup_cons]; exact acquireGroup_change _ _ _ (attempt_serves h)
  | cons m l ih =>
    rw [List.cons_append, acquireGroup_cons]
    simp only [List.mem_cons, not_or] at hn
    exact ih (attempt_keeps h hn.1 (hd m (by simp))) hn.2 (fun k hk => hd k (by simp [hk]))

theorem acquireGroup_plain (l) {s : St Val Env} {k} (h : Plain (s.q k)) (hk : k ∉ l) : Plain ((acquireGroup P l s).q k) := by
  induction l generalizing s with
  | nil => exact h
  | cons m l ih =>
    rw [acquireGroup_cons]
    simp only [List.mem_cons, not_or] at hk
    refine ih ?_ hk.2
    rcases attempt_q (P := P) m k s hk.1 with g | g <;> rw [g]
    · exact h
    · exact plain_avail h

theorem append_cons_inj {α : Type} {n : α} : ∀ {l1 a l2 b : List α}, n ∉ l1 → n ∉ a → l1 ++ n :: l2 = a ++ n :: b → l1 = a
  | [], [], _, _, _, _, _ => rfl
  | [], x :: a, _, _, _, h2, e => by simp at e; exact absurd (by simp [e.1]) h2
  | x :: l, [], _, _, h1, _, e => by simp at e; exact absurd (by simp [e.1]) h1
  | x :: l, y :: a, _, _, h1, h2, e => by
    simp only [List.cons_append, List.cons.injEq] at e
    rw [e.1, append_cons_inj (fun h => h1 (by simp [h])) (fun h => h2 (by simp [h])) e.2]

/-- A node that can be served, none of whose predecessors in the queue competes with it, is served. -/
theorem resolveFrom_serves (l1 l2) {s : St Val Env} {n} (h : Servable P s n) (hnd : (l1 ++ n :: l2).Nodup)
    (hp : ∀ k ∈ l1 ++ n :: l2, Plain (s.q k)) (hd : ∀ m ∈ l1, ∀ r ∈ resources P m, r ∉ resources P n) :
    n ∈ (resolveFrom P (l1 ++ n :: l2) s).change := by
  generalize hlen : l1.length = len
  induction len using Nat.strongRecOn generalizing l1 s with
  | _ len ih =>
    cases hl : l1 ++ n :: l2 with
    | nil => simp at hl
    | cons m rest =>
      rw [resolveFrom]
      have hlt := resolveFrom_lt (P := P) m rest s
      obtain ⟨pre, suf, e1, e2⟩ := collect_plain (P := P) (P.node m).priority (m :: rest) s (hl ▸ hp)
      rw [e2] at hlt ⊢
      simp only at hlt ⊢
      rw [← hl] at e1
      by_cases hn : n ∈ pre
      · -- in this group
        obtain ⟨a, b, hab⟩ := List.append_of_mem hn
        have hal : a = l1 := by
          rw [hab, List.append_assoc, List.cons_append] at e1
          have hna : n ∉ a := by
            intro hc
            rw [e1] at hnd
            exact (List.nodup_append.1 hnd).2.2 n hc n (by simp) rfl
          have hnl : n ∉ l1 := by
            intro hc; exact (List.nodup_append.1 hnd).2.2 n hc n (by simp) rfl
          exact (append_cons_inj hnl hna e1).symm
        subst hal
        refine resolveFrom_change _ _ _ ?_
        rw [hab, List.filter_append, List.filter_cons, if_pos (by simpa using h.q)]
        refine acquireGroup_serves _ _ h ?_ ?_
        · intro hc
          have := (List.mem_filter.1 hc).1
          exact (List.nodup_append.1 hnd).2.2 n this n (by simp) rfl
        · intro k hk; exact hd k (List.mem_filter.1 hk).1
      · -- later
        have hsuf : ∃ c, l1 = pre ++ c ∧ suf = c ++ n :: l2 := by
          rcases List.append_eq_append_iff.1 e1 with ⟨c, hc1, hc2⟩ | ⟨c, hc1, hc2⟩
          · cases c with
            | nil => exact ⟨[], by simpa using hc1.symm, by simpa using hc2.symm⟩
            | cons x c =>
              simp only [List.cons_append, List.cons.injEq] at hc2
              exact absurd (by rw [hc1, ← hc2.1]; simp) hn
          · exact ⟨c, hc1, hc2⟩
        obtain ⟨c, rfl, rfl⟩ := hsuf
        have hnpre : ∀ k ∈ c ++ n :: l2, k ∉ pre.filter (fun k => decide (s.q k = .pendingTry)) := by
          intro k hk hc
          have := (List.mem_filter.1 hc).1
          rw [List.append_assoc] at hnd
          exact (List.nodup_append.1 hnd).2.2 k this k hk rfl
        have hpne : pre ≠ [] := by
          intro e; subst e; rw [← hl] at hlt; simp at hlt
        refine ih c.length ?_ c ?_ ?_ ?_ ?_ rfl
        · subst hlen; have := List.length_pos_iff.2 hpne; simp; omega
        · exact acquireGroup_keeps _ h (hnpre n (by simp)) (fun k hk => hd k (by simp [(List.mem_filter.1 hk).1]))
        · rw [List.append_assoc] at hnd; exact (List.nodup_append.1 hnd).2.1
        · intro k hk
          exact acquireGroup_plain _ (hp k (by simp at hk ⊢; exact .inr hk)) (hnpre k hk)
        · intro k hk; exact hd k (by simp [hk])

theorem attempt_nx (n) (s : St Val Env) : (attempt P n s).nx = s.nx := by
  have h1 : (tryAcquire P n s).2.nx = s.nx := by obtain ⟨_, _, _, _, e⟩ := tryAcquire_frame P n s; rw [e]
  unfold attempt
  split
  · rw [addStateChange_nx, removePending_nx, h1]
  · exact h1

theorem acquireGroup_nx (l) (s : St Val Env) : (acquireGroup P l s).nx = s.nx := by
  induction l generalizing s with
  | nil => rfl
  | cons m l ih => rw [acquireGroup_cons, ih, attempt_nx]

/-- Giving out resources does not reconsider nodes that need not be reconsidered. -/
theorem resolveFrom_nx (l) {s : St Val Env} (hnd : l.Nodup) (hp : ∀ k ∈ l, Plain (s.q k)) : (resolveFrom P l s).nx = s.nx := by
  generalize hlen : l.length = len
  induction len using Nat.strongRecOn generalizing l s with
  | _ len ih =>
    cases l with
    | nil => rw [resolveFrom]
    | cons n rest =>
      rw [resolveFrom]
      have hlt := resolveFrom_lt (P := P) n rest s
      obtain ⟨pre, suf, e1, e2⟩ := collect_plain (P := P) (P.node n).priority (n :: rest) s hp
      rw [e2] at hlt ⊢
      simp only at hlt ⊢
      rw [e1] at hnd hp
      rw [ih _ (by omega) _ (List.nodup_append.1 hnd).2.1 ?_ rfl, acquireGroup_nx]
      intro k hk
      refine acquireGroup_plain _ (hp k (by simp [hk])) ?_
      intro hc
      exact (List.nodup_append.1 hnd).2.2 k (List.mem_filter.1 hc).1 k hk rfl

/-! ## Roots that have been added -/

theorem checkPhase_added {s t : St Val Env} (hr : ReachN P .check s) (h : CheckPhase P s t) {n} (hroot : (P.node n).anc = [])
    (hst : s.st n = .inactive) (hn : n ∈ s.cand) : n ∈ t.cand ∨ n ∈ t.change := by
  induction h with
  | refl => exact .inl hn
  | @step t m rest hph hc ih =>
    obtain ⟨i1, i2⟩ := hph.spec hr
    have hstt : t.st n = .inactive := by have := congrFun (congrArg Obs.st i2) n; exact this.trans hst
    have hcand : (checkOne P m { t with cand := rest }).cand = rest := by
      unfold checkOne
      have h1 : ∀ s : St Val Env, (computeNext P m s).cand = s.cand := fun s => by unfold computeNext; split <;> rfl
      have h3 : ∀ s : St Val Env, (addStateChange m s).cand = s.cand := fun s => by unfold addStateChange; split <;> rfl
      simp only
      split
      · rw [h1]
      · split
        · show (computeNext P m _).cand = _; rw [h1]
        · rw [h3, h1]
    have hmono : ∀ k, k ∈ t.change → k ∈ (checkOne P m { t with cand := rest }).change := by
      intro k hk
      unfold checkOne
      simp only
      split
      · rw [computeNext_change]; exact hk
      · split
        · show k ∈ (computeNext P m _).change; rw [computeNext_change]; exact hk
        · exact addStateChange_change _ _ _ (by rw [computeNext_change]; exact hk)
    rw [hcand]
    rcases ih with g | g
    · rw [hc] at g
      rcases List.mem_cons.1 g with g | g
      · subst g
        right
        have hdec : ∀ o : Obs Val Env, o.st n = .inactive → (decideNext P o n).map Dest.state = some .waiting := by
          intro o ho
          unfold decideNext parentState
          rw [ho, hroot]; rfl
        unfold checkOne
        simp only
        rw [computeNext_nx_self, hdec _ (by exact hstt)]
        simp only
        rw [if_neg (by simp)]
        unfold addStateChange
        rw [if_pos (by rw [computeNext_q]; simp)]
        simp
      · exact .inl g
    · exact .inr (hmono n g)

/-! ## Histories -/

/-- Every reported transition to EXECUTING was decided in the situation at the start of its micro step. -/
theorem ReachN.logReady (hN : Notifies P) (hT : TreeOK P) {ph : Phase} {s : St Val Env} (h : ReachN P ph s) :
    ∀ n a o, .trans n a .executing o ∈ s.log → Ready P o n := by
  induction h with
  | init vars env => intro n a o hm; cases hm
  | ext e ns _ hns ih => simpa using ih
  | ackUpd n _ ih =>
    unfold Exec.ackUpdate
    split
    · simpa using ih
    · exact ih
  | deletePlans _ ih => exact ih
  | @step ph ph' s s' hr hs hid ih =>
    obtain ⟨hI, hid0, hchk⟩ := hr.reach.inv
    have fin : ∀ (s : St Val Env) acc rej, (∀ n a o, .trans n a .executing o ∈ s.log → Ready P o n) →
        ∀ n a o, .trans n a .executing o ∈ (finishStep P acc rej s).log → Ready P o n := by
      intro s acc rej ih n a o hm
      obtain ⟨l, e, hl⟩ := finishStep_log (P := P) s acc rej
      rw [e] at hm
      rcases List.mem_append.1 hm with g | g
      · exact ih n a o g
      · exact (hl _ g).elim
    cases hs with
    | ext _ e ns => exact absurd ⟨rfl, rfl⟩ hid
    | ackUpd _ n => exact absurd ⟨rfl, rfl⟩ hid
    | deletePlans _ => exact absurd ⟨rfl, rfl⟩ hid
    | begin _ => exact ih
    | check _ n rest hc =>
      have : (checkOne P n { s with cand := rest }).log = s.log := by
        obtain ⟨_, _, _, _, _, _, _, _, _, _, e⟩ := checkOne_frame (P := P) n rest s; rw [e]
      rw [this]; exact ih
    | resolve _ hc hne =>
      have : (Exec.resolve P s).log = s.log := by
        obtain ⟨_, _, _, _, _, _, _, _, _, _, e⟩ := resolve_frame (P := P) s; rw [e]
      rw [this]; exact ih
    | trans _ n rest hc =>
      obtain ⟨d, o, oo, hd, hos, hnx, hdiag, _, h1, h2, _⟩ := transOne_fields hI hc
      rw [h2]
      intro k a o' hm
      rcases List.mem_append.1 hm with g | g
      · exact ih k a o' g
      · have hk := mem_move g
        subst hk
        unfold moveEvents at g
        rcases List.mem_cons.1 g with g | g
        · simp only [Event.trans.injEq] at g
          obtain ⟨_, _, g3, g4⟩ := g
          rw [g4]
          exact (hr.binv hN hT) k (by rw [hc]; simp) (by rw [hnx, ← g3])
        · split at g
          · simp at g
          · simp at g
    | again _ hc hn hne => exact ih
    | finishQuiet _ acc rej hc hne hp =>
      refine fin _ acc rej ?_
      have : (Exec.resolve P s).log = s.log := by
        obtain ⟨_, _, _, _, _, _, _, _, _, _, e⟩ := resolve_frame (P := P) s; rw [e]
      rw [this]; exact ih
    | finish _ acc rej hc hne hp => exact fin _ acc rej ih

end Verif.Exec
