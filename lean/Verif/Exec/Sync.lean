import Verif.Exec.Quiet
/-
A micro step is synchronous.
-/
set_option linter.unusedSimpArgs false
namespace Verif.Exec
open Verif.Node

variable {Val Env : Type} {P : Plan Val Env}

/-- Nodes about to start were ready at the start of the micro step. -/
def BInv (P : Plan Val Env) (s : St Val Env) : Prop := ∀ k ∈ s.change, s.nx k = some .executing → Ready P s.base k

theorem BInv.of {s s' : St Val Env} (h : BInv P s) (hb : s'.base = s.base)
    (hk : ∀ k ∈ s'.change, (k ∈ s.change ∧ s'.nx k = s.nx k) ∨ s'.nx k ≠ some .executing ∨ Ready P s.base k) : BInv P s' := by
  intro k hc hx
  rw [hb]
  rcases hk k hc with ⟨g1, g2⟩ | g | g
  · exact h k g1 (g2 ▸ hx)
  · exact absurd hx g
  · exact g

theorem addStateChange_memOr (n k) (s : St Val Env) (h : k ∈ (addStateChange n s).change) : k ∈ s.change ∨ k = n := by
  unfold addStateChange at h
  split at h
  · simpa using h
  · exact .inl h

theorem BInv.checkOne {s : St Val Env} (hI : Inv P s) (hb : s.obs = s.base) (h : BInv P s) {n rest} (hc : s.cand = n :: rest) :
    BInv P (checkOne P n { s with cand := rest }) := by
  have hnc : n ∉ s.change := by
    intro hm
    exact (hI.Q.changeQ n hm).2.1 ((hI.Q.candIff n).1 (by rw [hc]; simp))
  have hbase : (Exec.checkOne P n { s with cand := rest }).base = s.base := by
    obtain ⟨q, nx, nxO, nxF, _, _, _, _, _, _, e⟩ := checkOne_frame (P := P) n rest s; rw [e]
  refine h.of hbase ?_
  intro k hk
  unfold Exec.checkOne at hk ⊢
  simp only at hk ⊢
  generalize hs0 : ({ s with cand := rest, q := set s.q n .none } : St Val Env) = s0 at hk ⊢
  have ho : s0.obs = s.obs := by rw [← hs0]; rfl
  have hc0 : s0.change = s.change := by rw [← hs0]
  have hn0 : s0.nx = s.nx := by rw [← hs0]
  rcases computeNext_cases (P := P) n s0 with ⟨h1, h2⟩ | ⟨d, h1, h2⟩ | ⟨h1, h2⟩ <;> rw [h1] at hk ⊢ <;> simp only at hk ⊢
  · rw [computeNext_change, hc0] at hk
    have : k ≠ n := fun e => hnc (e ▸ hk)
    left; rw [computeNext_nx _ _ _ this, hn0]; exact ⟨hk, rfl⟩
  · rw [if_neg (fun hh => h2 hh.1)] at hk ⊢
    rw [addStateChange_nx]
    rcases addStateChange_memOr _ _ _ hk with g | g
    · rw [computeNext_change, hc0] at g
      have : k ≠ n := fun e => hnc (e ▸ g)
      left; rw [computeNext_nx _ _ _ this, hn0]; exact ⟨g, rfl⟩
    · right; left; rw [g, h1]; simpa using h2
  · rw [ho, hb] at h2
    split at hk
    · rename_i hx; rw [if_pos hx]
      have hk' : k ∈ (computeNext P n s0).change := hk
      rw [computeNext_change, hc0] at hk'
      have : k ≠ n := fun e => hnc (e ▸ hk')
      left
      exact ⟨hk', by show (computeNext P n s0).nx k = _; rw [computeNext_nx _ _ _ this, hn0]⟩
    · rename_i hx; rw [if_neg hx]
      rw [addStateChange_nx]
      rcases addStateChange_memOr _ _ _ hk with g | g
      · rw [computeNext_change, hc0] at g
        have : k ≠ n := fun e => hnc (e ▸ g)
        left; rw [computeNext_nx _ _ _ this, hn0]; exact ⟨g, rfl⟩
      · right; right; rw [g]; exact h2

theorem BInv.eligible {s : St Val Env} (hI : Inv P s) (h : BInv P s) {n} (hn : n ∈ s.pending) : BInv P (eligible P n s).2.2 := by
  have hnc : n ∉ s.change := fun hm => hI.Q.disj n hm hn
  have hbase : (Exec.eligible P n s).2.2.base = s.base := by
    obtain ⟨q, nx, nxO, nxF, _, _, _, _, _, _, e⟩ := eligible_frame (P := P) n s; rw [e]
  have same : ∀ k ∈ s.change, (computeNext P n s).nx k = s.nx k := fun k hk => computeNext_nx _ _ _ (fun e => hnc (e ▸ hk))
  have chg : (removePending P n (computeNext P n s)).change = s.change := by rw [removePending_change, computeNext_change]
  have rnx : (removePending P n (computeNext P n s)).nx = (computeNext P n s).nx := removePending_nx ..
  have add : ∀ d, (computeNext P n s).nx n = some d → d ≠ .executing → ∀ k ∈ (addStateChange n (removePending P n (computeNext P n s))).change,
      (k ∈ s.change ∧ (addStateChange n (removePending P n (computeNext P n s))).nx k = s.nx k) ∨
      (addStateChange n (removePending P n (computeNext P n s))).nx k ≠ some .executing := by
    intro d hd hne k hk
    rw [addStateChange_nx, rnx]
    rcases addStateChange_memOr _ _ _ hk with g | g
    · rw [chg] at g; exact .inl ⟨g, same k g⟩
    · right; rw [g, hd]; simpa using hne
  refine h.of hbase ?_
  intro k hk
  unfold Exec.eligible at hk ⊢
  split at hk <;> rename_i hq <;> simp only [hq] <;> simp only at hk
  · rcases computeNext_cases (P := P) n s with ⟨h1, h2⟩ | ⟨d, h1, h2⟩ | ⟨h1, h2⟩ <;> simp only [h1] at hk ⊢
    · rw [chg] at hk; left; rw [rnx]; exact ⟨hk, same k hk⟩
    · rw [if_pos h2] at hk ⊢
      rcases add d h1 h2 k hk with g | g
      · exact .inl g
      · exact .inr (.inl g)
    · simp only [ne_eq, not_true_eq_false, if_false] at hk ⊢
      rw [computeNext_change] at hk; exact .inl ⟨hk, same k hk⟩
  · rcases computeNext_cases (P := P) n s with ⟨h1, h2⟩ | ⟨d, h1, h2⟩ | ⟨h1, h2⟩ <;> simp only [h1] at hk ⊢
    · rw [chg] at hk; left; rw [rnx]; exact ⟨hk, same k hk⟩
    · rw [if_pos h2] at hk ⊢
      rcases add d h1 h2 k hk with g | g
      · exact .inl g
      · exact .inr (.inl g)
    · simp only [ne_eq, not_true_eq_false, if_false] at hk ⊢
      rw [computeNext_change] at hk; exact .inl ⟨hk, same k hk⟩
  · exact .inl ⟨hk, trivial⟩
  · exact .inl ⟨hk, trivial⟩
  · exact .inl ⟨hk, trivial⟩

theorem BInv.collect (prio l) {s : St Val Env} (hI : Inv P s) (hb : s.obs = s.base) (h : BInv P s) (hl : l.Nodup)
    (hp : ∀ k ∈ l, k ∈ s.pending) : BInv P (collect P prio l s).2.2 := by
  induction l generalizing s with
  | nil => exact h
  | cons n rest ih =>
    simp only [Exec.collect]
    obtain ⟨hn, hr⟩ := List.nodup_cons.1 hl
    split
    · obtain ⟨g1, g2, g3, g4, g5, g6⟩ := eligible_spec hI hb (hp n (by simp))
      have d1 := h.eligible hI (hp n (by simp))
      split
      · exact d1
      · exact ih g1 (by rw [g2, g3]; exact hb) d1 hr (fun k hk => g4 k (fun e => hn (e ▸ hk)) (hp k (by simp [hk])))
    · exact h

theorem BInv.attempt {s : St Val Env} (h : BInv P s) {n} (hr : Ready P s.base n) :
    BInv P (if (tryAcquire P n s).1 then addStateChange n (removePending P n (tryAcquire P n s).2)
      else { (tryAcquire P n s).2 with q := set (tryAcquire P n s).2.q n .pending }) := by
  have hfr := tryAcquire_frame P n s
  have h1 : (tryAcquire P n s).2.change = s.change := by obtain ⟨_, _, _, _, e⟩ := hfr; rw [e]
  have h2 : (tryAcquire P n s).2.nx = s.nx := by obtain ⟨_, _, _, _, e⟩ := hfr; rw [e]
  have h3 : (tryAcquire P n s).2.base = s.base := by obtain ⟨_, _, _, _, e⟩ := hfr; rw [e]
  generalize (tryAcquire P n s).2 = s1 at *
  split
  · refine h.of ?_ ?_
    · obtain ⟨q, nx, nxO, nxF, _, _, _, _, _, _, e⟩ := addStateChange_frame n (removePending P n s1)
      obtain ⟨q', nx', nxO', nxF', _, _, _, _, _, _, e'⟩ := removePending_frame (P := P) n s1
      rw [e, e']; exact h3
    · intro k hk
      rw [addStateChange_nx, removePending_nx, h2]
      rcases addStateChange_memOr _ _ _ hk with g | g
      · rw [removePending_change, h1] at g; exact .inl ⟨g, rfl⟩
      · right; right; rw [g]; exact hr
  · refine h.of h3 ?_
    intro k hk
    left; exact ⟨h1 ▸ hk, by show s1.nx k = _; rw [h2]⟩

theorem BInv.acquireGroup (ns) {s : St Val Env} (hI : Inv P s) (h : BInv P s) (hnd : ns.Nodup) (hp : ∀ k ∈ ns, k ∈ s.pending)
    (hr : ∀ k ∈ ns, Ready P s.base k) : BInv P (acquireGroup P ns s) := by
  induction ns generalizing s with
  | nil => exact h
  | cons n ns ih =>
    obtain ⟨hn, hnd⟩ := List.nodup_cons.1 hnd
    obtain ⟨i1, i2⟩ := hI.attempt (hp n (by simp))
    have hbase : (Exec.acquireGroup P [n] s).base = s.base := (acquireGroup_spec [n] hI (by simp) (by simpa using hp n (by simp))).2.2.1
    simp only [Exec.acquireGroup] at hbase ⊢
    exact ih i1 (h.attempt (hr n (by simp))) hnd
      (fun k hk => i2 k (fun e => hn (e ▸ hk)) (hp k (by simp [hk]))) (fun k hk => by rw [hbase]; exact hr k (by simp [hk]))

theorem BInv.resolveFrom (l) {s : St Val Env} (hI : Inv P s) (hb : s.obs = s.base) (hD : DInv P s) (h : BInv P s) (hl : l.Nodup)
    (hp : ∀ k ∈ l, k ∈ s.pending) : BInv P (resolveFrom P l s) := by
  generalize hlen : l.length = len
  induction len using Nat.strongRecOn generalizing l s with
  | _ len ih =>
    cases l with
    | nil => rw [Exec.resolveFrom]; exact h
    | cons n rest =>
      rw [Exec.resolveFrom]
      have hc := collect_spec (P.node n).priority (n :: rest) hI hb hl hp
      obtain ⟨hH, hR⟩ := hD.collect (P.node n).priority (n :: rest) hI hb hl hp
      have hB := h.collect (P.node n).priority (n :: rest) hI hb hl hp
      have hlt : (Exec.collect P (P.node n).priority (n :: rest) s).2.1.length < (n :: rest).length := by
        simp only [Exec.collect, if_true]
        split
        · simp
        · have := collect_length P (P.node n).priority rest (Exec.eligible P n s).2.2
          simp only [List.length_cons]
          omega
      generalize Exec.collect P (P.node n).priority (n :: rest) s = t at hc hlt hH hR hB
      obtain ⟨g1, g2, g3, _, g5, g6, g7, g8⟩ := hc
      obtain ⟨a1, a2, a3, a4⟩ := acquireGroup_spec t.1 g1 g6 (fun k hk => (g5 k hk).2)
      exact ih t.2.1.length (by omega) t.2.1 a1 (by rw [a2, a3, g2, g3, hb])
        (hH.acquireGroup t.1 g1 g6 (fun k hk => (g5 k hk).2) (fun k hk => by rw [g2]; exact hR k hk))
        (hB.acquireGroup t.1 g1 g6 (fun k hk => (g5 k hk).2) (fun k hk => by rw [g3, ← hb]; exact hR k hk)) g8
        (fun k hk => a4 k (g7 k hk).2.2 (g7 k hk).2.1) rfl

theorem BInv.resolve {s : St Val Env} (hI : Inv P s) (hb : s.obs = s.base) (hD : DInv P s) (h : BInv P s) : BInv P (resolve P s) :=
  h.resolveFrom _ hI hb hD hI.Q.pendingNodup (fun _ hk => hk)

theorem BInv.transOne {s : St Val Env} (hI : Inv P s) (h : BInv P s) {n rest} (hc : s.change = n :: rest) :
    BInv P (transOne P n { s with change := rest }) := by
  obtain ⟨d, o, oo, hd, hos, hnx, hdiag, _, h1, _, _, _, _, _, _, _, _, _, h2, h3, _⟩ := transOne_fields hI hc
  have hne : d.state ≠ s.st n := by
    have := getDest_ne hd (by rw [hos]; exact (hI.N.ok n).1); rw [hos] at this; exact this
  have hnr : n ∉ rest := by have := hI.Q.changeNodup; rw [hc] at this; exact (List.nodup_cons.1 this).1
  refine h.of h3 ?_
  intro k hk
  rw [h2] at hk
  left
  refine ⟨by rw [hc]; simp [hk], ?_⟩
  have hkn : k ≠ n := fun e => hnr (e ▸ hk)
  unfold Exec.transOne
  simp only
  split <;> rw [transition_nx P n _ d.state (by simpa using hnx) (by simpa using hne), set_ne _ _ _ _ hkn]
  · rfl

/-- Nodes about to start executing, in executions where all changes are notified. -/
theorem ReachN.binv (hN : Notifies P) (hT : TreeOK P) {ph : Phase} {s : St Val Env} (h : ReachN P ph s) : BInv P s := by
  induction h with
  | init vars env => intro k hk; cases hk
  | ext e ns _ hns ih => exact ih.of (by simp) (fun k hk => .inl ⟨by simpa using hk, by simp⟩)
  | ackUpd n _ ih =>
    unfold Exec.ackUpdate
    split
    · exact ih.of (by simp) (fun k hk => .inl ⟨by simpa using hk, by simp⟩)
    · exact ih
  | deletePlans _ ih => exact ih
  | @step ph ph' s s' hr hs hid ih =>
    obtain ⟨hI, hid0, hchk⟩ := hr.reach.inv
    cases hs with
    | ext _ e ns => exact absurd ⟨rfl, rfl⟩ hid
    | ackUpd _ n => exact absurd ⟨rfl, rfl⟩ hid
    | deletePlans _ => exact absurd ⟨rfl, rfl⟩ hid
    | begin _ => intro k hk; rw [show ({ s with base := s.obs } : St Val Env).change = s.change from rfl, hid0 rfl] at hk; cases hk
    | check _ n rest hc => exact ih.checkOne hI (hchk rfl) hc
    | resolve _ hc hne => exact ih.resolve hI (hchk rfl) (hr.dinv hN hT)
    | trans _ n rest hc => exact ih.transOne hI hc
    | again _ hc hn hne => intro k hk; rw [show ({ s with base := s.obs } : St Val Env).change = s.change from rfl, hc] at hk; cases hk
    | finishQuiet _ acc rej hc hne hp => intro k hk; rw [finishStep_change, hne] at hk; cases hk
    | finish _ acc rej hc hne hp => intro k hk; rw [finishStep_change, hc] at hk; cases hk

/-! ## The phases -/

theorem CheckPhase.spec {s t : St Val Env} (hr : ReachN P .check s) (h : CheckPhase P s t) : ReachN P .check t ∧ t.obs = s.obs := by
  induction h with
  | refl => exact ⟨hr, rfl⟩
  | @step t n rest _ hc ih =>
    obtain ⟨i1, i2⟩ := ih
    refine ⟨i1.step (.check _ _ _ hc) (by simp), ?_⟩
    rw [← i2]
    obtain ⟨q, nx, nxO, nxF, _, _, _, _, _, _, e⟩ := checkOne_frame (P := P) n rest t; rw [e]; rfl

/-- One transition, seen from the situation at the start of the micro step. -/
theorem transOne_sync {s : St Val Env} (hI : Inv P s) (hB : BInv P s) {n rest} (hc : s.change = n :: rest) (h1 : s.base.st n = s.st n)
    (h2 : s.base.out n = s.out n) (h3 : s.base.fail n = s.fail n) :
    let s' := transOne P n { s with change := rest }
    (s'.st n, s'.out n, s'.fail n) = synchronousNext P s.base n ∧ s'.change = rest ∧ s'.base = s.base ∧
    (∀ k, k ≠ n → s'.st k = s.st k ∧ s'.out k = s.out k ∧ s'.fail k = s.fail k) := by
  have hin : n ∈ s.change := by rw [hc]; simp
  obtain ⟨d, o, hd, hst, hf, hnx, hnxO, hnxF, hbase⟩ := hI.N.dec n hin
  have hne : d.state ≠ s.st n := by
    have := getDest_ne hd (by rw [hst]; exact (hI.N.ok n).1); rw [hst] at this; exact this
  have hdec : decideNext P s.base n = some d := by
    by_cases hx : d.state = .executing
    · have := hB n hin (by rw [hnx, hx])
      unfold Ready at this
      rw [this, (getDest_executing hd hx).2]
    · rw [← hbase (fun g => hx g.1)]; exact hd
  obtain ⟨_, _, _, _, _, _, _, _, _, _, _, _, _, _, _, _, _, _, g2, g3, _⟩ := transOne_fields hI hc
  have key : ∀ s1 : St Val Env, s1.nx n = s.nx n → s1.nxO n = s.nxO n → s1.nxF n = s.nxF n → s1.st = s.st → s1.out = s.out → s1.fail = s.fail →
      ((transition P n s1).st n, (transition P n s1).out n, (transition P n s1).fail n) = synchronousNext P s.base n ∧
      ∀ k, k ≠ n → (transition P n s1).st k = s.st k ∧ (transition P n s1).out k = s.out k ∧ (transition P n s1).fail k = s.fail k := by
    intro s1 a1 a2 a3 a4 a5 a6
    have b1 : s1.nx n = some d.state := a1.trans hnx
    have b2 : d.state ≠ s1.st n := by rw [a4]; exact hne
    constructor
    · unfold synchronousNext
      rw [hdec]
      simp only
      rw [h1, h2, h3, transition_st P n _ d.state b1 b2, transition_out P n _ d.state b1 b2, transition_fail P n _ d.state b1 b2,
        a2, a3, a4, a5, a6, hnxO, hnxF]
      simp
    · intro k hk
      rw [transition_st P n _ d.state b1 b2, transition_out P n _ d.state b1 b2, transition_fail P n _ d.state b1 b2, a4, a5, a6]
      simp [hk, set_ne _ _ _ _ hk]
  have : ∀ s' : St Val Env, s' = transOne P n { s with change := rest } → 
      (s'.st n, s'.out n, s'.fail n) = synchronousNext P s.base n ∧
      ∀ k, k ≠ n → s'.st k = s.st k ∧ s'.out k = s.out k ∧ s'.fail k = s.fail k := by
    intro s' e
    unfold Exec.transOne at e
    simp only at e
    split at e <;> rw [e] <;> apply key <;> rfl
  exact ⟨(this _ rfl).1, g2, g3, (this _ rfl).2⟩

theorem TransPhase.spec {s t : St Val Env} (hN : Notifies P) (hT : TreeOK P) (hr : ReachN P .trans s) (ho : s.obs = s.base)
    (h : TransPhase P s t) : ReachN P .trans t ∧ t.base = s.base ∧ t.change <:+ s.change ∧
    ∀ n, (n ∈ t.change ∨ n ∉ s.change → t.st n = s.st n ∧ t.out n = s.out n ∧ t.fail n = s.fail n) ∧
      (n ∈ s.change → n ∉ t.change → (t.st n, t.out n, t.fail n) = synchronousNext P s.base n) := by
  induction h with
  | refl => exact ⟨hr, rfl, List.suffix_refl _, fun n => ⟨fun _ => ⟨rfl, rfl, rfl⟩, fun h1 h2 => absurd h1 h2⟩⟩
  | @step t m rest _ hc ih =>
    obtain ⟨i1, i2, i3, i4⟩ := ih
    obtain ⟨hI, _, _⟩ := i1.reach.inv
    obtain ⟨j1, j2, j3⟩ := (i4 m).1 (.inl (by rw [hc]; simp))
    have hms : m ∈ s.change := i3.subset (by rw [hc]; simp)
    obtain ⟨k1, k2, k3, k4⟩ := transOne_sync hI (i1.binv hN hT) hc (by rw [i2, ← ho]; exact j1.symm) (by rw [i2, ← ho]; exact j2.symm)
      (by rw [i2, ← ho]; exact j3.symm)
    have hnr : m ∉ rest := by have := hI.Q.changeNodup; rw [hc] at this; exact (List.nodup_cons.1 this).1
    refine ⟨i1.step (.trans _ _ _ hc) (by simp), k3.trans i2, ?_, ?_⟩
    · rw [k2]; rw [hc] at i3; exact (List.suffix_cons m rest).trans i3
    · intro n
      rw [k2]
      by_cases e : n = m
      · subst e
        refine ⟨fun g => ?_, fun _ _ => by rw [k1, i2]⟩
        rcases g with g | g
        · exact absurd g hnr
        · exact absurd hms g
      · obtain ⟨l1, l2, l3⟩ := k4 n e
        rw [l1, l2, l3]
        have : n ∈ t.change ↔ n ∈ rest := by rw [hc]; simp [e]
        rw [← this]
        exact i4 n

/-- A node with nothing to do. -/
theorem synchronousNext_none {o : Obs Val Env} {n} (h : decideNext P o n = none) : synchronousNext P o n = (o.st n, o.out n, o.fail n) := by
  unfold synchronousNext; rw [h]

theorem eligible_cand (n) (s : St Val Env) : (eligible P n s).2.2.cand = s.cand := by
  have h1 : ∀ s : St Val Env, (computeNext P n s).cand = s.cand := fun s => by unfold computeNext; split <;> rfl
  have h2 : ∀ s : St Val Env, (removePending P n s).cand = s.cand := fun s => by
    obtain ⟨w, h, _⟩ := removePending_fields (P := P) n s; rw [h]
  have h3 : ∀ s : St Val Env, (addStateChange n s).cand = s.cand := fun s => by unfold addStateChange; split <;> rfl
  unfold eligible
  split <;> simp only
  · split
    · simp only [h1, h2]
    · split <;> simp only [h1, h2, h3]
  · split
    · simp only [h1, h2]
    · split <;> simp only [h1, h2, h3]

theorem collect_cand (prio l) (s : St Val Env) : (collect P prio l s).2.2.cand = s.cand := by
  induction l generalizing s with
  | nil => rfl
  | cons n rest ih =>
    simp only [collect]
    split
    · split
      · exact eligible_cand n s
      · rw [ih]; exact eligible_cand n s
    · rfl

theorem acquireGroup_cand (l) (s : St Val Env) : (acquireGroup P l s).cand = s.cand := by
  induction l generalizing s with
  | nil => rfl
  | cons n rest ih =>
    have h0 : (tryAcquire P n s).2.cand = s.cand := by obtain ⟨_, _, _, _, e⟩ := tryAcquire_frame P n s; rw [e]
    have h2 : ∀ s : St Val Env, (removePending P n s).cand = s.cand := fun s => by
      obtain ⟨w, h, _⟩ := removePending_fields (P := P) n s; rw [h]
    have h3 : ∀ s : St Val Env, (addStateChange n s).cand = s.cand := fun s => by unfold addStateChange; split <;> rfl
    simp only [acquireGroup]
    rw [ih]
    split
    · rw [h3, h2, h0]
    · exact h0

theorem resolveFrom_cand (l) (s : St Val Env) : (resolveFrom P l s).cand = s.cand := by
  generalize hlen : l.length = len
  induction len using Nat.strongRecOn generalizing l s with
  | _ len ih =>
    cases l with
    | nil => rw [resolveFrom]
    | cons n rest =>
      rw [resolveFrom]
      have hlt : (collect P (P.node n).priority (n :: rest) s).2.1.length < (n :: rest).length := by
        simp only [collect, if_true]
        split
        · simp
        · have := collect_length P (P.node n).priority rest (eligible P n s).2.2
          simp only [List.length_cons]
          omega
      rw [ih _ (by omega) _ _ rfl, acquireGroup_cand, collect_cand]

theorem MicroStep.spec {s s' : St Val Env} (hN : Notifies P) (hT : TreeOK P) (hr : ReachN P .check s) (h : MicroStep P s s') :
    ReachN P .trans s' ∧ ∀ n, ((s'.st n, s'.out n, s'.fail n) = synchronousNext P s.obs n ∨
      (acquiresResources P n = true ∧ (s'.st n, s'.out n, s'.fail n) = (s.st n, s.out n, s.fail n)) ∨
      ((P.node n).anc = [] ∧ s.st n = .inactive ∧ (s'.st n, s'.out n, s'.fail n) = (s.st n, s.out n, s.fail n))) := by
  obtain ⟨t, hc, hcand, hne, ht, hend⟩ := h
  obtain ⟨hrt, hot⟩ := hc.spec hr
  obtain ⟨hI, _, hchk⟩ := hrt.reach.inv
  have hb := hchk rfl
  obtain ⟨hIr, hor, hbr⟩ := hI.resolve hb
  have hD := (hrt.dinv hN hT).resolve hI hb
  have hrr : ReachN P .trans (resolve P t) := hrt.step (.resolve _ hcand hne) (by simp)
  have hob : (resolve P t).obs = (resolve P t).base := by rw [hor, hbr]; exact hb
  obtain ⟨g1, g2, g3, g4⟩ := ht.spec hN hT hrr hob
  refine ⟨g1, fun n => ?_⟩
  have hobs : (resolve P t).obs = s.obs := by rw [hor, hot]
  have e1 : (resolve P t).st n = s.st n := congrFun (congrArg Obs.st hobs) n
  have e2 : (resolve P t).out n = s.out n := congrFun (congrArg Obs.out hobs) n
  have e3 : (resolve P t).fail n = s.fail n := congrFun (congrArg Obs.fail hobs) n
  by_cases hn : n ∈ (resolve P t).change
  · left
    rw [(g4 n).2 hn (by rw [hend]; simp), ← hob, hobs]
  · obtain ⟨f1, f2, f3⟩ := (g4 n).1 (.inr hn)
    rw [f1, f2, f3, e1, e2, e3]
    have none_of : decideNext P s.obs n = none → (s.st n, s.out n, s.fail n) = synchronousNext P s.obs n :=
      fun hd => (synchronousNext_none hd).symm
    have hcr : (resolve P t).cand = [] := (resolveFrom_cand _ _).trans hcand
    cases hq : (resolve P t).q n with
    | none =>
      rcases hD.quiet n hq with g | ⟨g, g'⟩
      · left; exact none_of (by rw [← hobs]; exact g)
      · right; right; exact ⟨g, e1 ▸ g', rfl⟩
    | delete =>
      obtain ⟨d1, d2⟩ := hD.del n hq
      left
      apply none_of
      unfold decideNext parentState
      rw [d2, show s.obs.st n = .finished by rw [← d1]; exact e1.symm]; rfl
    | check => have := (hIr.Q.candIff n).2 hq; rw [hcr] at this; cases this
    | transition => exact absurd (hIr.Q.transIn n (.inl hq)) hn
    | transitionCheck => exact absurd (hIr.Q.transIn n (.inr hq)) hn
    | _ => right; left; exact ⟨(hD.acq n (by rw [hq]; trivial)).1, rfl⟩

end Verif.Exec
