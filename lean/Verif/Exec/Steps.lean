import Verif.Exec.Inv
/-
Every step of an execution preserves the invariant.
-/
namespace Verif.Exec
open Verif.Node

variable {Val Env : Type} {P : Plan Val Env}

theorem set_same {α β : Type} [DecidableEq α] (f : α → β) (a : α) (b : β) (h : f a = b) : set f a b = f := by
  funext x; by_cases e : x = a
  · subst e; simp [h]
  · simp [e]

theorem computeNext_none {n} {s : St Val Env} (h : decideNext P s.obs n = none) :
    computeNext P n s = { s with nx := set s.nx n none } := by
  unfold computeNext; rw [h]

theorem computeNext_some {n} {s : St Val Env} {d : Dest} (h : decideNext P s.obs n = some d) (hO : s.nxO n = .none)
    (hF : s.nxF n = .none) :
    computeNext P n s = { s with nx := set s.nx n (some d.state), nxO := set s.nxO n d.outcome, nxF := set s.nxF n d.failure } := by
  unfold computeNext; rw [h]
  have e1 : (if d.outcome = .none then s.nxO else set s.nxO n d.outcome) = set s.nxO n d.outcome := by
    split
    · rename_i e; rw [e, set_same _ _ _ hO]
    · rfl
  have e2 : (if d.failure = .none then s.nxF else set s.nxF n d.failure) = set s.nxF n d.failure := by
    split
    · rename_i e; rw [e, set_same _ _ _ hF]
    · rfl
  simp only [e1, e2]

theorem NInv.enqueue {s s' : St Val Env} (h : NInv P s) (n : NodeId) (e1 : s'.st = s.st) (e2 : s'.out = s.out)
    (e3 : s'.fail = s.fail) (e4 : ∀ k, k ≠ n → s'.nx k = s.nx k) (e5 : ∀ k, k ≠ n → s'.nxO k = s.nxO k)
    (e6 : ∀ k, k ≠ n → s'.nxF k = s.nxF k) (e7 : s'.change = s.change ++ [n])
    (e8 : ∀ k ∈ s'.pending, k ∈ s.pending ∧ k ≠ n) (e9 : s'.holder = s.holder) (e10 : s'.log = s.log) (e11 : s'.base = s.base)
    (hn : n ∉ s.change) (hd : Decided P s' n) (hh : s'.nx n = some .executing → ∀ r ∈ resources P n, s.holder r = some n) :
    NInv P s' := by
  have hne : ∀ k ∈ s.change, k ≠ n := by intro k hk e; subst e; exact hn hk
  constructor
  · intro k hk
    by_cases e : k = n
    · subst e; exact hd
    · rw [e7] at hk
      rcases List.mem_append.1 hk with hk | hk
      · obtain ⟨d, o, g⟩ := h.dec k hk
        refine ⟨d, o, ?_⟩
        rw [e1, e3, e4 k e, e5 k e, e6 k e, e11]; exact g
      · simp at hk; exact absurd hk e
  · intro k hk
    rw [e7] at hk
    have hk1 : k ∉ s.change := fun hc => hk (List.mem_append_left _ hc)
    have hk2 : k ≠ n := fun hc => hk (List.mem_append_right _ (by simp [hc]))
    rw [e5 k hk2, e6 k hk2]; exact h.clean k hk1
  · intro k hk
    obtain ⟨hk1, hk2⟩ := e8 k hk
    rw [e1, e3, e4 k hk2]; exact h.pend k hk1
  · intro k; rw [e1, e2, e3]; exact h.ok k
  · intro k hk r hr
    rw [e9]
    rw [e1, e7] at hk
    by_cases e : k = n
    · subst e
      rcases hk with hk | ⟨_, hk⟩
      · exact h.held k (.inl hk) r hr
      · exact hh hk r hr
    · refine h.held k ?_ r hr
      rcases hk with hk | ⟨hk1, hk⟩
      · exact .inl hk
      · right
        rw [e4 k e] at hk
        rcases List.mem_append.1 hk1 with hk1 | hk1
        · exact ⟨hk1, hk⟩
        · simp at hk1; exact absurd hk1 e
  · intro k; rw [e10, e1]; exact h.hist k
  · rw [e10]; exact h.log

/-- The node is put in, kept in or dropped from the pending queue; no decision is queued. -/
theorem NInv.park {s s' : St Val Env} (h : NInv P s) (n : NodeId) (e1 : s'.st = s.st) (e2 : s'.out = s.out)
    (e3 : s'.fail = s.fail) (e4 : ∀ k, k ≠ n → s'.nx k = s.nx k) (e5 : s'.nxO = s.nxO) (e6 : s'.nxF = s.nxF)
    (e7 : s'.change = s.change) (e8 : ∀ k ∈ s'.pending, k ≠ n → k ∈ s.pending) (e9 : s'.holder = s.holder) (e10 : s'.log = s.log)
    (e11 : s'.base = s.base) (hn : n ∉ s.change)
    (hd : n ∈ s'.pending → s'.st n = .waiting ∧ s'.nx n = some .executing ∧ acquiresResources P n = true ∧
      ∃ o, decideNext P o n = some ⟨.executing, .none, .none⟩ ∧ o.st n = s'.st n ∧ o.fail n = s'.fail n) : NInv P s' := by
  have hne : ∀ k ∈ s.change, k ≠ n := by intro k hk e; subst e; exact hn hk
  constructor
  · intro k hk
    rw [e7] at hk
    obtain ⟨d, o, g⟩ := h.dec k hk
    refine ⟨d, o, ?_⟩
    rw [e1, e3, e4 k (hne k hk), e5, e6, e11]; exact g
  · intro k hk
    rw [e7] at hk
    rw [e5, e6]; exact h.clean k hk
  · intro k hk
    by_cases e : k = n
    · subst e; exact hd hk
    · rw [e1, e3, e4 k e]; exact h.pend k (e8 k hk e)
  · intro k; rw [e1, e2, e3]; exact h.ok k
  · intro k hk r hr
    rw [e9]
    rw [e1, e7] at hk
    refine h.held k ?_ r hr
    rcases hk with hk | ⟨hk1, hk⟩
    · exact .inl hk
    · exact .inr ⟨hk1, by rw [← e4 k (hne k hk1)]; exact hk⟩
  · intro k; rw [e10, e1]; exact h.hist k
  · rw [e10]; exact h.log

theorem QInv.popCand {s : St Val Env} (h : QInv P s) {n rest} (hc : s.cand = n :: rest) :
    QInv P { s with cand := rest, q := set s.q n .none } := by
  have hnd := h.candNodup
  rw [hc] at hnd
  obtain ⟨hn, hnd⟩ := List.nodup_cons.1 hnd
  have hq : s.q n = .check := (h.candIff n).1 (by rw [hc]; simp)
  have hch : n ∉ s.change := fun hm => (h.changeQ n hm).2.1 hq
  have hp : n ∉ s.pending := fun hm => by have := h.pendQ n hm; rw [hq] at this; exact this
  constructor
  · exact hnd
  · intro k
    show k ∈ rest ↔ set s.q n _ k = _
    rw [set_apply]
    split
    · rename_i e; subst e; simp [hn]
    · rename_i e
      rw [← h.candIff, hc]; simp [e]
  · exact h.changeNodup
  · exact h.pendingNodup
  · intro k hk
    show set s.q n _ k ≠ _ ∧ set s.q n _ k ≠ _ ∧ set s.q n _ k ≠ _
    rw [set_apply]
    split
    · rename_i e; subst e; exact absurd hk hch
    · exact h.changeQ k hk
  · exact h.disj
  · intro k hk
    show IsPend (set s.q n _ k)
    rw [set_apply]
    split
    · rename_i e; subst e; exact absurd hk hp
    · exact h.pendQ k hk
  · intro k hk
    change set s.q n _ k = _ ∨ set s.q n _ k = _ at hk
    rw [set_apply] at hk
    split at hk
    · simp at hk
    · exact h.transIn k hk
  · intro k hk
    change IsTry (set s.q n _ k) at hk
    rw [set_apply] at hk
    split at hk
    · exact hk.elim
    · exact h.tryIn k hk
  · exact h.waitIn
  · exact h.waitNodup
  · exact h.noInternal

theorem not_acquires_resources {n} (h : ¬ acquiresResources P n = true) : resources P n = [] := by
  unfold acquiresResources at h
  unfold resources
  simp only [Bool.not_eq_true, Bool.or_eq_false_iff, Bool.not_eq_false', List.isEmpty_iff, beq_eq_false_iff_ne] at h
  simp [h.1, h.2]

theorem decide_state {o : Obs Val Env} {n} {d : Dest} (h : decideNext P o n = some d) (hd : d.state = .executing) :
    o.st n = .waiting ∧ d = ⟨.executing, .none, .none⟩ := getDest_executing h hd

theorem Inv.checkOne {s : St Val Env} (h : Inv P s) (hb : s.obs = s.base) {n rest} (hc : s.cand = n :: rest) :
    Inv P (checkOne P n { s with cand := rest }) ∧ (checkOne P n { s with cand := rest }).obs = s.obs ∧
      (checkOne P n { s with cand := rest }).base = s.base := by
  have hQ := h.Q.popCand hc
  generalize hs1 : ({ s with cand := rest, q := set s.q n .none } : St Val Env) = s1 at hQ
  have hN : NInv P s1 := by subst hs1; exact h.N.congr rfl rfl rfl rfl rfl rfl rfl rfl rfl rfl rfl
  have ho : s1.obs = s.obs := by subst hs1; rfl
  have hba : s1.base = s.base := by subst hs1; rfl
  have hq : s1.q n = .none := by subst hs1; simp
  have hunf : Exec.checkOne P n { s with cand := rest } =
      (match (computeNext P n s1).nx n with
        | none => computeNext P n s1
        | some d => if d = .executing ∧ acquiresResources P n = true then Exec.addPending P n (computeNext P n s1)
            else Exec.addStateChange n (computeNext P n s1)) := by
    rw [← hs1]; rfl
  rw [hunf]
  obtain ⟨_, hch, hp⟩ := hQ.none_out hq
  obtain ⟨hO, hF⟩ := hN.clean n hch
  cases hd : decideNext P s1.obs n with
  | none =>
    rw [computeNext_none hd]
    simp only [set_self]
    refine ⟨⟨hQ.congr rfl rfl rfl rfl rfl rfl, ?_⟩, ho, hba⟩
    exact hN.park n rfl rfl rfl (fun k hk => by simp [hk]) rfl rfl rfl (fun k hk _ => hk) rfl rfl rfl hch (fun hm => absurd hm hp)
  | some d =>
    rw [computeNext_some hd hO hF]
    simp only [set_self]
    have hQ2 : QInv P { s1 with nx := set s1.nx n (some d.state), nxO := set s1.nxO n d.outcome, nxF := set s1.nxF n d.failure } :=
      hQ.congr rfl rfl rfl rfl rfl rfl
    by_cases hex : d.state = .executing ∧ acquiresResources P n = true
    · rw [if_pos hex]
      obtain ⟨hw, hdd⟩ := decide_state hd hex.1
      refine ⟨⟨?_, ?_⟩, ho, hba⟩
      · refine QInv.addPending hQ2 ?_
        exact hq
      · refine hN.park n rfl rfl rfl (fun k hk => by simp [Exec.addPending, hk]) ?_ ?_ rfl ?_ rfl rfl rfl hch ?_
        · simp only [Exec.addPending, hdd]; exact set_same _ _ _ hO
        · simp only [Exec.addPending, hdd]; exact set_same _ _ _ hF
        · intro k hk hkn
          simp only [Exec.addPending] at hk
          rcases (mem_insertPending n k _).1 hk with e | e
          · exact absurd e hkn
          · exact e
        · intro _
          refine ⟨hw, ?_, hex.2, s1.obs, ?_, rfl, rfl⟩
          · simp [Exec.addPending, hex.1]
          · rw [hd, hdd]
    · rw [if_neg hex]
      refine ⟨⟨QInv.addStateChange hQ2 hq, ?_⟩, ?_, ?_⟩
      · unfold Exec.addStateChange
        rw [if_pos hq]
        refine hN.enqueue n rfl rfl rfl (fun k hk => by simp [hk]) (fun k hk => by simp [hk]) (fun k hk => by simp [hk]) rfl
          (fun k hk => ⟨hk, fun e => hp (e ▸ hk)⟩) rfl rfl rfl hch ?_ ?_
        · exact ⟨d, s1.obs, hd, rfl, rfl, by simp, by simp, by simp, fun _ => by rw [ho, hb, ← hba]⟩
        · intro he r hr
          simp only [set_self, Option.some.injEq] at he
          have : ¬ acquiresResources P n = true := fun ha => hex ⟨he, ha⟩
          rw [not_acquires_resources this] at hr
          simp at hr
      · unfold Exec.addStateChange; rw [if_pos hq]; exact ho
      · unfold Exec.addStateChange; rw [if_pos hq]; exact hba

/-! ## Resolution of resource conflicts -/

theorem acquireMutexes_err (n ms) (s : St Val Env) (h : Err.internal ∉ s.err) : Err.internal ∉ (acquireMutexes P n ms s).2.err := by
  induction ms generalizing s with
  | nil => exact h
  | cons m ms ih =>
    have ha : (acquire (.mutex m) n s).2.err = s.err := by unfold acquire; split <;> rfl
    simp only [acquireMutexes]
    split
    · exact ih _ (by rw [ha]; exact h)
    · simp only [List.mem_append, ha]
      rintro (h1 | h1)
      · exact h h1
      · split at h1 <;> simp at h1

theorem giveBack_err (n ms) (s : St Val Env) : (giveBack n ms s).err = s.err := by
  induction ms generalizing s with
  | nil => rfl
  | cons m ms ih =>
    simp only [giveBack]
    rw [ih]
    show (release (.mutex m) n s).err = _
    rw [release_err]

theorem tryAcquire_err (n) (s : St Val Env) (h : Err.internal ∉ s.err) : Err.internal ∉ (tryAcquire P n s).2.err := by
  have h0 := acquireMutexes_err (P := P) n (P.node n).mutexes s h
  have ha : ∀ r (s : St Val Env), (acquire r n s).2.err = s.err := by intro r s; unfold acquire; split <;> rfl
  have hw : ∀ r (s : St Val Env), (addWaiter r n s).err = s.err := fun _ _ => rfl
  simp only [tryAcquire]
  split <;> split <;> (try split) <;> first | exact h0 | (simp only [giveBack_err, ha, hw]; exact h0)

/-- A status that only moves within the pending states. -/
theorem eligible_spec {s : St Val Env} (h : Inv P s) (hb : s.obs = s.base) {n : NodeId} (hn : n ∈ s.pending) :
    Inv P (eligible P n s).2.2 ∧ (eligible P n s).2.2.obs = s.obs ∧ (eligible P n s).2.2.base = s.base ∧
    (∀ k, k ≠ n → k ∈ s.pending → k ∈ (eligible P n s).2.2.pending) ∧
    ((eligible P n s).2.1 = false → n ∈ (eligible P n s).2.2.pending) ∧
    ((eligible P n s).1 = true → (eligible P n s).2.1 = false) := by
  have hq := h.Q.pendQ n hn
  have hch : n ∉ s.change := fun hc => h.Q.disj n hc hn
  obtain ⟨hO, hF⟩ := h.N.clean n hch
  obtain ⟨hw, hnx, hacq, hpd⟩ := h.N.pend n hn
  have hqn : s.q n ≠ .check := by intro e; rw [e] at hq; exact hq
  -- removal of the node with no decision
  have rem : ∀ x : St Val Env, x = { s with nx := set s.nx n none } →
      Inv P (Exec.removePending P n x) ∧ (Exec.removePending P n x).obs = s.obs ∧ (Exec.removePending P n x).base = s.base ∧
      (∀ k, k ≠ n → k ∈ s.pending → k ∈ (Exec.removePending P n x).pending) ∧ (Exec.removePending P n x).q n = .none := by
    intro x hx
    have hQ : QInv P x := by rw [hx]; exact h.Q.congr rfl rfl rfl rfl rfl rfl
    have hnp : n ∈ x.pending := by rw [hx]; exact hn
    have hQ' := hQ.removePending hnp
    obtain ⟨w, heq, _⟩ := removePending_fields (P := P) n x
    refine ⟨⟨hQ', ?_⟩, ?_, ?_, ?_, ?_⟩
    · rw [heq, hx]
      refine h.N.park n rfl rfl rfl (fun k hk => by simp [hk]) rfl rfl rfl (fun k hk _ => List.mem_of_mem_erase hk) rfl rfl rfl hch ?_
      intro hm
      exact absurd rfl ((h.Q.pendingNodup.mem_erase_iff).1 hm).1
    · rw [heq, hx]; rfl
    · rw [heq, hx]
    · intro k hk hkp
      rw [heq, hx]
      exact (List.mem_erase_of_ne hk).2 hkp
    · rw [heq]; simp
  -- removal followed by a state change
  have chg : ∀ d : Dest, decideNext P s.obs n = some d → d.state ≠ .executing →
      ∀ x : St Val Env, x = { s with nx := set s.nx n (some d.state), nxO := set s.nxO n d.outcome, nxF := set s.nxF n d.failure } →
      Inv P (Exec.addStateChange n (Exec.removePending P n x)) ∧
      (Exec.addStateChange n (Exec.removePending P n x)).obs = s.obs ∧
      (Exec.addStateChange n (Exec.removePending P n x)).base = s.base ∧
      (∀ k, k ≠ n → k ∈ s.pending → k ∈ (Exec.addStateChange n (Exec.removePending P n x)).pending) ∧
      (Exec.addStateChange n (Exec.removePending P n x)).q n = .transition ∧
      n ∈ (Exec.addStateChange n (Exec.removePending P n x)).change ∧
      n ∉ (Exec.addStateChange n (Exec.removePending P n x)).pending := by
    intro d hd hde x hx
    have hQ : QInv P x := by rw [hx]; exact h.Q.congr rfl rfl rfl rfl rfl rfl
    have hnp : n ∈ x.pending := by rw [hx]; exact hn
    have hQ' := hQ.removePending hnp
    obtain ⟨w, heq, _⟩ := removePending_fields (P := P) n x
    have hqq : (Exec.removePending P n x).q n = .none := by rw [heq]; simp
    have hQ2 := hQ'.addStateChange hqq
    unfold Exec.addStateChange at hQ2 ⊢
    rw [if_pos hqq] at hQ2 ⊢
    refine ⟨⟨hQ2, ?_⟩, ?_, ?_, ?_, ?_, ?_, ?_⟩
    · rw [heq, hx]
      refine h.N.enqueue n rfl rfl rfl (fun k hk => by simp [hk]) (fun k hk => by simp [hk]) (fun k hk => by simp [hk]) rfl
        ?_ rfl rfl rfl hch ?_ ?_
      · intro k hk
        obtain ⟨h1, h2⟩ := (h.Q.pendingNodup.mem_erase_iff).1 hk
        exact ⟨h2, h1⟩
      · exact ⟨d, s.obs, hd, rfl, rfl, by simp, by simp, by simp, fun _ => hb⟩
      · intro he
        simp only [set_self, Option.some.injEq] at he
        exact absurd he hde
    · rw [heq, hx]; rfl
    · rw [heq, hx]
    · intro k hk hkp
      rw [heq, hx]
      exact (List.mem_erase_of_ne hk).2 hkp
    · simp
    · simp
    · rw [heq, hx]
      intro hm
      exact absurd rfl ((h.Q.pendingNodup.mem_erase_iff).1 hm).1
  -- the decision is still to execute
  have keep : ∀ d : Dest, decideNext P s.obs n = some d → d.state = .executing →
      set s.nx n (some d.state) = s.nx ∧ set s.nxO n d.outcome = s.nxO ∧ set s.nxF n d.failure = s.nxF := by
    intro d hd hde
    obtain ⟨_, hdd⟩ := decide_state hd hde
    rw [hdd]
    exact ⟨set_same _ _ _ hnx, set_same _ _ _ hO, set_same _ _ _ hF⟩
  have setPend : ∀ x : St Val Env, Inv P x → x.q n ≠ .check → Inv P { x with q := set x.q n .pending } := by
    intro x hx hxq
    refine ⟨hx.Q.setQ hxq (by simp) (fun _ => by simp) (fun _ => trivial) (by simp) (fun hh => hh.elim), ?_⟩
    exact hx.N.congr rfl rfl rfl rfl rfl rfl rfl rfl rfl rfl rfl
  unfold eligible
  split
  · -- pendingCheck
    cases hd : decideNext P s.obs n with
    | none =>
      rw [computeNext_none hd]
      simp only [set_self]
      obtain ⟨g1, g2, g3, g4, g5⟩ := rem _ rfl
      refine ⟨setPend _ g1 (by rw [g5]; simp), g2, g3, g4, by simp, by simp⟩
    | some d =>
      rw [computeNext_some hd hO hF]
      simp only [set_self]
      split
      · rename_i hde
        obtain ⟨g1, g2, g3, g4, g5, g6, _⟩ := chg d hd hde _ rfl
        refine ⟨setPend _ g1 (by rw [g5]; simp), g2, g3, g4, by simp, by simp⟩
      · rename_i hde
        obtain ⟨k1, k2, k3⟩ := keep d hd (Classical.not_not.1 hde)
        rw [k1, k2, k3]
        exact ⟨setPend s h hqn, rfl, rfl, fun k _ hkp => hkp, fun _ => hn, fun _ => rfl⟩
  · -- pendingTryCheck
    cases hd : decideNext P s.obs n with
    | none =>
      rw [computeNext_none hd]
      simp only [set_self]
      obtain ⟨g1, g2, g3, g4, g5⟩ := rem _ rfl
      exact ⟨g1, g2, g3, g4, by simp, by simp⟩
    | some d =>
      rw [computeNext_some hd hO hF]
      simp only [set_self]
      split
      · rename_i hde
        obtain ⟨g1, g2, g3, g4, _⟩ := chg d hd hde _ rfl
        exact ⟨g1, g2, g3, g4, by simp, by simp⟩
      · rename_i hde
        obtain ⟨k1, k2, k3⟩ := keep d hd (Classical.not_not.1 hde)
        rw [k1, k2, k3]
        exact ⟨h, rfl, rfl, fun k _ hkp => hkp, fun _ => hn, fun hh => rfl⟩
  · exact ⟨h, rfl, rfl, fun k _ hkp => hkp, fun _ => hn, fun hh => rfl⟩
  · exact ⟨h, rfl, rfl, fun k _ hkp => hkp, fun _ => hn, fun hh => rfl⟩
  · rename_i h1 h2 h3 h4
    exfalso
    revert hq h1 h2 h3 h4
    cases s.q n <;> simp [IsPend]

theorem collect_spec (prio : Int) (l : List NodeId) {s : St Val Env} (h : Inv P s) (hb : s.obs = s.base) (hl : l.Nodup)
    (hp : ∀ k ∈ l, k ∈ s.pending) :
    Inv P (collect P prio l s).2.2 ∧ (collect P prio l s).2.2.obs = s.obs ∧ (collect P prio l s).2.2.base = s.base ∧
    (∀ k, k ∉ l → k ∈ s.pending → k ∈ (collect P prio l s).2.2.pending) ∧
    (∀ k ∈ (collect P prio l s).1, k ∈ l ∧ k ∈ (collect P prio l s).2.2.pending) ∧ (collect P prio l s).1.Nodup ∧
    (∀ k ∈ (collect P prio l s).2.1, k ∈ l ∧ k ∈ (collect P prio l s).2.2.pending ∧ k ∉ (collect P prio l s).1) ∧
    (collect P prio l s).2.1.Nodup := by
  induction l generalizing s with
  | nil => exact ⟨h, rfl, rfl, fun k _ hk => hk, by simp [collect], by simp [collect], by simp [collect], by simp [collect]⟩
  | cons n rest ih =>
    simp only [collect]
    obtain ⟨hn, hr⟩ := List.nodup_cons.1 hl
    split
    · obtain ⟨g1, g2, g3, g4, g5, g6⟩ := eligible_spec h hb (hp n (by simp))
      split
      · refine ⟨g1, g2, g3, ?_, by simp, by simp, by simp, by simp⟩
        intro k hk hkp
        exact g4 k (fun e => hk (by simp [e])) hkp
      · rename_i hnr
        have hnr : (eligible P n s).2.1 = false := by simpa using hnr
        obtain ⟨i1, i2, i3, i4, i5, i6, i7, i8⟩ := ih g1 (by rw [g2, g3]; exact hb) hr
          (fun k hk => g4 k (fun e => hn (e ▸ hk)) (hp k (by simp [hk])))
        refine ⟨i1, by rw [i2, g2], by rw [i3, g3], ?_, ?_, ?_, ?_, i8⟩
        · intro k hk hkp
          refine i4 k (fun hc => hk (by simp [hc])) (g4 k (fun e => hk (by simp [e])) hkp)
        · intro k hk
          split at hk
          · rcases List.mem_cons.1 hk with e | hk
            · subst e
              exact ⟨by simp, i4 k hn (g5 hnr)⟩
            · exact ⟨by simp [(i5 k hk).1], (i5 k hk).2⟩
          · exact ⟨by simp [(i5 k hk).1], (i5 k hk).2⟩
        · split
          · exact List.nodup_cons.2 ⟨fun hc => hn (i5 n hc).1, i6⟩
          · exact i6
        · intro k hk
          refine ⟨by simp [(i7 k hk).1], (i7 k hk).2.1, ?_⟩
          split
          · intro hc
            rcases List.mem_cons.1 hc with e | hc
            · subst e; exact hn (i7 k hk).1
            · exact (i7 k hk).2.2 hc
          · exact (i7 k hk).2.2
    · refine ⟨h, rfl, rfl, fun k _ hk => hk, by simp, by simp, ?_, hl⟩
      intro k hk
      exact ⟨hk, hp k hk, by simp⟩

theorem acquireGroup_spec (ns : List NodeId) {s : St Val Env} (h : Inv P s) (hnd : ns.Nodup) (hp : ∀ k ∈ ns, k ∈ s.pending) :
    Inv P (acquireGroup P ns s) ∧ (acquireGroup P ns s).obs = s.obs ∧ (acquireGroup P ns s).base = s.base ∧
    (∀ k, k ∉ ns → k ∈ s.pending → k ∈ (acquireGroup P ns s).pending) := by
  induction ns generalizing s with
  | nil => exact ⟨h, rfl, rfl, fun k _ hk => hk⟩
  | cons n ns ih =>
    obtain ⟨hn, hr⟩ := List.nodup_cons.1 hnd
    have hnp := hp n (by simp)
    have hch : n ∉ s.change := fun hc => h.Q.disj n hc hnp
    obtain ⟨hO, hF⟩ := h.N.clean n hch
    obtain ⟨hw, hnx, hacq, o, ho1, ho2, ho3⟩ := h.N.pend n hnp
    have hfr := tryAcquire_frame P n s
    have heff := tryAcquire_eff P n s
    obtain ⟨_, sp2, sp3⟩ := tryAcquire_spec P n s
    have hnotheld : ¬ (Running (s.st n) ∨ (n ∈ s.change ∧ s.nx n = some .executing)) := by
      rintro (h1 | h1)
      · rw [hw] at h1; rcases h1 with h1 | h1 | h1 <;> cases h1
      · exact hch h1.1
    have hI : Inv P (tryAcquire P n s).2 :=
      ⟨h.Q.reff hfr heff (.inl hnp) (.inl hnp) (tryAcquire_err n s h.Q.noInternal), h.N.reff hfr heff (fun hh => absurd hh hnotheld)⟩
    simp only [acquireGroup]
    generalize hr' : tryAcquire P n s = r at *
    obtain ⟨b, s1⟩ := r
    simp only at *
    have hs1 : s1.pending = s.pending ∧ s1.change = s.change ∧ s1.st = s.st ∧ s1.obs = s.obs ∧ s1.base = s.base ∧ s1.nx = s.nx ∧
        s1.nxO = s.nxO ∧ s1.nxF = s.nxF ∧ s1.fail = s.fail := by
      obtain ⟨q, ho, w, e, rfl⟩ := hfr
      exact ⟨rfl, rfl, rfl, rfl, rfl, rfl, rfl, rfl, rfl⟩
    obtain ⟨p1, p2, p3, p4, p5, p6, p7, p8, p9⟩ := hs1
    have hnp1 : n ∈ s1.pending := by rw [p1]; exact hnp
    cases b with
    | false =>
      simp only [Bool.false_eq_true, if_false]
      have hq1 := hI.Q.pendQ n hnp1
      have hI2 : Inv P { s1 with q := set s1.q n .pending } := by
        refine ⟨hI.Q.setQ ?_ (by simp) (fun _ => by simp) (fun _ => trivial) (by simp) (fun hh => hh.elim), ?_⟩
        · intro e; rw [e] at hq1; exact hq1
        · exact hI.N.congr rfl rfl rfl rfl rfl rfl rfl rfl rfl rfl rfl
      obtain ⟨i1, i2, i3, i4⟩ := ih hI2 hr (fun k hk => by show k ∈ s1.pending; rw [p1]; exact hp k (by simp [hk]))
      refine ⟨i1, by rw [i2]; exact p4, by rw [i3]; exact p5, ?_⟩
      intro k hk hkp
      exact i4 k (fun hc => hk (by simp [hc])) (by show k ∈ s1.pending; rw [p1]; exact hkp)
    | true =>
      simp only [if_true]
      have hQ1 := hI.Q.removePending hnp1
      obtain ⟨w, heq, _⟩ := removePending_fields (P := P) n s1
      have hqq : (Exec.removePending P n s1).q n = .none := by rw [heq]; simp
      have hQ2 := hQ1.addStateChange hqq
      have hI2 : Inv P (Exec.addStateChange n (Exec.removePending P n s1)) := by
        refine ⟨hQ2, ?_⟩
        unfold Exec.addStateChange
        rw [if_pos hqq, heq]
        refine hI.N.enqueue n rfl rfl rfl (fun _ _ => rfl) (fun _ _ => rfl) (fun _ _ => rfl) rfl ?_ rfl rfl rfl (by rw [p2]; exact hch) ?_ ?_
        · intro k hk
          obtain ⟨h1, h2⟩ := (hI.Q.pendingNodup.mem_erase_iff).1 hk
          exact ⟨h2, h1⟩
        · refine ⟨⟨.executing, .none, .none⟩, o, ho1, ?_, ?_, ?_, ?_, ?_, ?_⟩
          · simp only [p3]; exact ho2
          · simp only [p9]; exact ho3
          · simp only [p6]; exact hnx
          · simp only [p7]; exact hO
          · simp only [p8]; exact hF
          · intro hc
            exfalso
            apply hc
            exact ⟨rfl, hacq⟩
        · intro _ r hr
          have := sp2 rfl r
          rw [if_pos hr] at this; exact this
      have hpend : ∀ k, k ≠ n → k ∈ s.pending → k ∈ (Exec.addStateChange n (Exec.removePending P n s1)).pending := by
        intro k hk hkp
        unfold Exec.addStateChange
        rw [if_pos hqq, heq]
        exact (List.mem_erase_of_ne hk).2 (by rw [p1]; exact hkp)
      obtain ⟨i1, i2, i3, i4⟩ := ih hI2 hr (fun k hk => hpend k (fun e => hn (e ▸ hk)) (hp k (by simp [hk])))
      have hobs : (Exec.addStateChange n (Exec.removePending P n s1)).obs = s.obs ∧
          (Exec.addStateChange n (Exec.removePending P n s1)).base = s.base := by
        unfold Exec.addStateChange
        rw [if_pos hqq, heq]
        exact ⟨p4, p5⟩
      refine ⟨i1, by rw [i2]; exact hobs.1, by rw [i3]; exact hobs.2, ?_⟩
      intro k hk hkp
      exact i4 k (fun hc => hk (by simp [hc])) (hpend k (fun e => hk (by simp [e])) hkp)

theorem resolveFrom_spec (l : List NodeId) {s : St Val Env} (h : Inv P s) (hb : s.obs = s.base) (hl : l.Nodup)
    (hp : ∀ k ∈ l, k ∈ s.pending) :
    Inv P (resolveFrom P l s) ∧ (resolveFrom P l s).obs = s.obs ∧ (resolveFrom P l s).base = s.base := by
  generalize hlen : l.length = len
  induction len using Nat.strongRecOn generalizing l s with
  | _ len ih =>
    cases l with
    | nil => rw [resolveFrom]; exact ⟨h, rfl, rfl⟩
    | cons n rest =>
      rw [resolveFrom]
      have hc := collect_spec (P.node n).priority (n :: rest) h hb hl hp
      have hlt : (collect P (P.node n).priority (n :: rest) s).2.1.length < (n :: rest).length := by
        simp only [collect, if_true]
        split
        · simp
        · have := collect_length P (P.node n).priority rest (eligible P n s).2.2
          simp only [List.length_cons]
          omega
      generalize collect P (P.node n).priority (n :: rest) s = t at hc hlt
      obtain ⟨g1, g2, g3, _, g5, g6, g7, g8⟩ := hc
      have ha := acquireGroup_spec t.1 g1 g6 (fun k hk => (g5 k hk).2)
      obtain ⟨a1, a2, a3, a4⟩ := ha
      have := ih t.2.1.length (by omega) t.2.1 a1 (by rw [a2, a3, g2, g3, hb]) g8
        (fun k hk => a4 k (g7 k hk).2.2 (g7 k hk).2.1) rfl
      obtain ⟨i1, i2, i3⟩ := this
      exact ⟨i1, by rw [i2, a2, g2], by rw [i3, a3, g3]⟩

theorem Inv.resolve {s : St Val Env} (h : Inv P s) (hb : s.obs = s.base) :
    Inv P (resolve P s) ∧ (Exec.resolve P s).obs = s.obs ∧ (Exec.resolve P s).base = s.base :=
  resolveFrom_spec s.pending h hb h.Q.pendingNodup (fun _ hk => hk)

/-! ## Transitions -/

/-- A node in no queue, or only a candidate. -/
def Free (q : QStatus) : Prop := q = .none ∨ q = .check

theorem QInv.free_out {s : St Val Env} (h : QInv P s) {n : NodeId} (hq : Free (s.q n)) : n ∉ s.change ∧ n ∉ s.pending := by
  refine ⟨?_, ?_⟩
  · intro hc
    rcases hq with hq | hq
    · exact (h.changeQ n hc).1 hq
    · exact (h.changeQ n hc).2.1 hq
  · intro hc
    have := h.pendQ n hc
    rcases hq with hq | hq <;> rw [hq] at this <;> exact this

theorem QInv.popChange {s : St Val Env} (h : QInv P s) {n rest} (hc : s.change = n :: rest) :
    QInv P { s with change := rest, q := set s.q n .none } := by
  have hnd := h.changeNodup
  rw [hc] at hnd
  obtain ⟨hn, hnd⟩ := List.nodup_cons.1 hnd
  have hin : n ∈ s.change := by rw [hc]; simp
  have hq := h.changeQ n hin
  have hp := h.disj n hin
  have hsub : ∀ k ∈ rest, k ∈ s.change := fun k hk => by rw [hc]; simp [hk]
  constructor
  · exact h.candNodup
  · intro k
    show k ∈ s.cand ↔ set s.q n _ k = _
    rw [set_apply, h.candIff]
    split
    · rename_i e; subst e; simp [hq]
    · exact Iff.rfl
  · exact hnd
  · exact h.pendingNodup
  · intro k hk
    show set s.q n _ k ≠ _ ∧ set s.q n _ k ≠ _ ∧ set s.q n _ k ≠ _
    rw [set_apply]
    split
    · rename_i e; subst e; exact absurd hk hn
    · exact h.changeQ k (hsub k hk)
  · intro k hk; exact h.disj k (hsub k hk)
  · intro k hk
    show IsPend (set s.q n _ k)
    rw [set_apply]
    split
    · rename_i e; subst e; exact absurd hk hp
    · exact h.pendQ k hk
  · intro k hk
    change set s.q n _ k = _ ∨ set s.q n _ k = _ at hk
    rw [set_apply] at hk
    split at hk
    · simp at hk
    · rename_i e
      have := h.transIn k hk
      rw [hc] at this
      rcases List.mem_cons.1 this with e' | h'
      · exact absurd e' e
      · exact h'
  · intro k hk
    change IsTry (set s.q n _ k) at hk
    rw [set_apply] at hk
    split at hk
    · exact hk.elim
    · exact h.tryIn k hk
  · exact h.waitIn
  · exact h.waitNodup
  · exact h.noInternal

theorem QInv.addFinishedRoot {s : St Val Env} (h : QInv P s) {n : NodeId} (hq : Free (s.q n)) : QInv P (addFinishedRoot n s) := by
  obtain ⟨hch, hp⟩ := h.free_out hq
  unfold Exec.addFinishedRoot
  rw [if_pos (show s.q n = .check ∨ s.q n = .none from hq.symm)]
  have hcand : (if s.q n = .check then s.cand.erase n else s.cand) = s.cand.erase n := by
    split
    · rfl
    · rename_i hne
      rw [List.erase_of_not_mem]
      rw [h.candIff]; exact hne
  simp only [hcand]
  constructor
  · exact h.candNodup.erase n
  · intro k
    show k ∈ s.cand.erase n ↔ set s.q n _ k = _
    rw [h.candNodup.mem_erase_iff, set_apply, h.candIff]
    split
    · rename_i e; simp [e]
    · rename_i e; simp [e]
  · exact h.changeNodup
  · exact h.pendingNodup
  · intro k hk
    show set s.q n _ k ≠ _ ∧ set s.q n _ k ≠ _ ∧ set s.q n _ k ≠ _
    rw [set_apply]
    split
    · rename_i e; subst e; exact absurd hk hch
    · exact h.changeQ k hk
  · exact h.disj
  · intro k hk
    show IsPend (set s.q n _ k)
    rw [set_apply]
    split
    · rename_i e; subst e; exact absurd hk hp
    · exact h.pendQ k hk
  · intro k hk
    change set s.q n _ k = _ ∨ set s.q n _ k = _ at hk
    rw [set_apply] at hk
    split at hk
    · simp at hk
    · exact h.transIn k hk
  · intro k hk
    change IsTry (set s.q n _ k) at hk
    rw [set_apply] at hk
    split at hk
    · exact hk.elim
    · exact h.tryIn k hk
  · exact h.waitIn
  · exact h.waitNodup
  · exact h.noInternal

theorem notify_free {q : NodeId} {n} {s : St Val Env} (h : Free (s.q n)) : Free ((notify q s).q n) := by
  unfold notify
  simp only [set_apply]
  split
  · rename_i e; subst e
    rcases h with h | h <;> rw [h] <;> exact .inr rfl
  · exact h

theorem notifyAll_free (ns : List NodeId) {n} {s : St Val Env} (h : Free (s.q n)) : Free ((notifyAll ns s).q n) := by
  unfold notifyAll
  induction ns generalizing s with
  | nil => exact h
  | cons k ns ih => exact ih (notify_free h)

theorem QInv.releaseAll {s : St Val Env} (h : QInv P s) (n rs) : QInv P (releaseAll n rs s) := by
  refine h.reff (releaseAll_frame n rs s) (releaseAll_eff P n rs s) (.inr ?_) (.inr (releaseAll_q n rs s)) ?_
  · intro r; rw [releaseAll_waiters]; exact id
  · rw [releaseAll_err]; exact h.noInternal

theorem releaseAll_free (n rs k) {s : St Val Env} (h : Free (s.q k)) : Free ((releaseAll n rs s).q k) := by
  rcases releaseAll_q n rs s k with e | ⟨e, _⟩
  · rw [e]; exact h
  · rw [e]; rcases h with h | h <;> rw [h] <;> simp [Free, availQ]

theorem QInv.transTo {s : St Val Env} (h : QInv P s) (n a b) (hq : Free (s.q n)) :
    QInv P (transTo P n a b s) ∧ Free ((Exec.transTo P n a b s).q n) := by
  unfold Exec.transTo
  have key : ∀ x : St Val Env, x.q = s.q → x.cand = s.cand → x.change = s.change → x.pending = s.pending → x.waiters = s.waiters →
      x.err = s.err → QInv P (Exec.releaseAll n (released P n a b) x) ∧ Free ((Exec.releaseAll n (released P n a b) x).q n) := by
    intro x e1 e2 e3 e4 e5 e6
    exact ⟨(h.congr e1 e2 e3 e4 e5 e6).releaseAll n _, releaseAll_free _ _ _ (by rw [e1]; exact hq)⟩
  cases b with
  | executing => exact key _ (by simp) (by simp) (by simp) (by simp) (by simp) (by simp)
  | failing => cases (P.node n).type <;> exact key _ rfl rfl rfl rfl rfl rfl
  | _ => exact key _ rfl rfl rfl rfl rfl rfl

theorem QInv.transition {s : St Val Env} (h : QInv P s) {n b} (hb : s.nx n = some b) (hne : b ≠ s.st n) (hq : Free (s.q n)) :
    QInv P (transition P n s) := by
  rw [transition_stages P n s b hb hne]
  have h0 : QInv P (transFrom n (s.st n) b s) := h.congr (by simp) (by simp) (by simp) (by simp) (by simp) (by simp)
  have hq0 : Free ((transFrom n (s.st n) b s).q n) := by rw [transFrom_q]; exact hq
  obtain ⟨h1, hq1⟩ := h0.transTo n (s.st n) b hq0
  generalize Exec.transTo P n (s.st n) b (transFrom n (s.st n) b s) = s1 at h1 hq1
  have h2 := h1.notifyAll (P.wake (.pre n) s1.obs)
  have hq2 := notifyAll_free (P.wake (.pre n) s1.obs) hq1
  simp only
  generalize Exec.notifyAll (P.wake (.pre n) s1.obs) s1 = s2 at h2 hq2
  have h3 : QInv P (setState P n b s2) := by
    unfold setState
    refine QInv.notifyAll ?_ _
    have hx : QInv P { s2 with st := set s2.st n b, log := s2.log ++ [.trans n (s2.st n) b s2.base] } :=
      h2.congr rfl rfl rfl rfl rfl rfl
    split
    · exact hx.addFinishedRoot hq2
    · exact hx.notify n
  have h4 : QInv P (setOutcome n (setState P n b s2)) := h3.congr rfl rfl rfl rfl rfl rfl
  generalize setOutcome n (setState P n b s2) = s3 at h4
  refine QInv.notifyAll ?_ _
  split
  · refine QInv.congr h4 ?_ ?_ ?_ ?_ ?_ ?_ <;> simp
  · exact h4.congr rfl rfl rfl rfl rfl rfl

theorem Inv.transOne {s : St Val Env} (h : Inv P s) {n rest} (hc : s.change = n :: rest) :
    Inv P (transOne P n { s with change := rest }) ∧ (transOne P n { s with change := rest }).change = rest ∧
      (transOne P n { s with change := rest }).base = s.base := by
  have hin : n ∈ s.change := by rw [hc]; simp
  obtain ⟨d, o, hd, hst, hf, hnx, hnxO, hnxF, hbase⟩ := h.N.dec n hin
  obtain ⟨hex, hcons⟩ := h.N.ok n
  have hd' : getDest (P.node n).type (s.st n) (parentState P o n) (s.fail n) (conds P o n) = some d := by
    rw [← hst, ← hf]; exact hd
  have hne := getDest_ne hd' hex
  have hdiag := Verif.Props.Node.C01_destination_in_diagram _ _ _ _ _ _ hex hd'
  have hnr : n ∉ rest := by
    have := h.Q.changeNodup; rw [hc] at this; exact (List.nodup_cons.1 this).1
  unfold Exec.transOne
  simp only
  have hQ0 := h.Q.popChange hc
  -- the state in which `transition` starts
  obtain ⟨s1, hs1, hQ1, hq1, f1, f2, f3, f4, f5, f6, f7, f8, f9, f10, f11⟩ :
      ∃ s1 : St Val Env, (if s.q n = .transitionCheck then Exec.notify n { s with change := rest, q := set s.q n .none }
          else { s with change := rest, q := set s.q n .none }) = s1 ∧ QInv P s1 ∧ Free (s1.q n) ∧ s1.st = s.st ∧ s1.out = s.out ∧
        s1.fail = s.fail ∧ s1.nx = s.nx ∧ s1.nxO = s.nxO ∧ s1.nxF = s.nxF ∧ s1.change = rest ∧ s1.pending = s.pending ∧
        s1.holder = s.holder ∧ s1.log = s.log ∧ s1.base = s.base := by
    refine ⟨_, rfl, ?_⟩
    split
    · exact ⟨hQ0.notify n, notify_free (.inl (by simp)), rfl, rfl, rfl, rfl, rfl, rfl, rfl, rfl, rfl, rfl, rfl⟩
    · exact ⟨hQ0, .inl (by simp), rfl, rfl, rfl, rfl, rfl, rfl, rfl, rfl, rfl, rfl, rfl⟩
  rw [hs1]
  have hb : s1.nx n = some d.state := by rw [f4]; exact hnx
  have hne1 : d.state ≠ s1.st n := by rw [f1]; exact hne
  refine ⟨⟨hQ1.transition hb hne1 hq1, ?_⟩, by rw [transition_change P n s1 _ hb hne1, f7],
    by rw [transition_base P n s1 _ hb hne1, f11]⟩
  have e1 := transition_st P n s1 _ hb hne1
  have e2 := transition_nx P n s1 _ hb hne1
  have e3 := transition_nxO P n s1 _ hb hne1
  have e4 := transition_nxF P n s1 _ hb hne1
  have e5 := transition_change P n s1 _ hb hne1
  have e6 := transition_pending P n s1 _ hb hne1
  have e7 := transition_holder P n s1 _ hb hne1
  have e8 := transition_log P n s1 _ hb hne1
  have e9 := transition_out P n s1 _ hb hne1
  have e10 := transition_fail P n s1 _ hb hne1
  have e11 := transition_base P n s1 _ hb hne1
  generalize Exec.transition P n s1 = s' at *
  rw [f1] at e1
  rw [f4] at e2
  rw [f5] at e3
  rw [f6] at e4
  rw [f7] at e5
  rw [f8] at e6
  rw [f10, f1, f11] at e8
  rw [f11] at e11
  simp only [f1, f2, f3, f5, f6, hnxO, hnxF] at e9 e10
  have hold : ∀ k r, k ≠ n → s.holder r = some k → s'.holder r = some k := by
    intro k r hk hh
    rw [e7, releaseAll_holder, f9, hh]
    rw [if_neg]
    rintro ⟨_, e⟩
    simp at e; exact hk e
  have hhist : lastState n s.log .inactive = s.st n := h.N.hist n
  constructor
  · intro k hk
    rw [e5] at hk
    have hkn : k ≠ n := fun e => hnr (e ▸ hk)
    obtain ⟨d', o', g1, g2, g3, g4, g5, g6, g7⟩ := h.N.dec k (by rw [hc]; simp [hk])
    refine ⟨d', o', g1, ?_, ?_, ?_, ?_, ?_, ?_⟩
    · rw [e1, set_ne _ _ _ _ hkn]; exact g2
    · rw [e10, if_neg hkn]; exact g3
    · rw [e2, set_ne _ _ _ _ hkn]; exact g4
    · rw [e3, set_ne _ _ _ _ hkn]; exact g5
    · rw [e4, set_ne _ _ _ _ hkn]; exact g6
    · rw [e11]; exact g7
  · intro k hk
    rw [e5] at hk
    rw [e3, e4]
    by_cases hkn : k = n
    · subst hkn; simp
    · rw [set_ne _ _ _ _ hkn, set_ne _ _ _ _ hkn]
      refine h.N.clean k ?_
      rw [hc]; simp [hkn, hk]
  · intro k hk
    rw [e6] at hk
    have hkn : k ≠ n := fun e => h.Q.disj n hin (e ▸ hk)
    rw [e1, e2, e10, if_neg hkn, set_ne _ _ _ _ hkn, set_ne _ _ _ _ hkn]
    exact h.N.pend k hk
  · intro k
    by_cases hkn : k = n
    · subst hkn
      rw [e1, e9, e10, set_self, if_pos rfl, if_pos rfl]
      refine ⟨hdiag.2, ?_⟩
      exact consistent_step hd' hex hcons
    · rw [e1, e9, e10, set_ne _ _ _ _ hkn, if_neg hkn, if_neg hkn]
      exact h.N.ok k
  · intro k hk r hr
    by_cases hkn : k = n
    · subst hkn
      rw [e1, set_self, e5, e2, set_self] at hk
      have hrun : Running d.state := by
        rcases hk with hk | hk
        · exact hk
        · cases hk.2
      have hrel : released P k (s1.st k) d.state = [] := by
        unfold released
        rcases hrun with e | e | e <;> rw [e] <;> simp
      rw [e7, hrel]
      show s1.holder r = some k
      rw [f9]
      refine h.N.held k ?_ r hr
      rcases hrun with e | e | e
      · right; exact ⟨hin, by rw [hnx, e]⟩
      · left
        have := hdiag.1
        rw [e] at this
        generalize s.st k = a at this
        generalize (P.node k).type = t at this
        cases this <;> simp [Running]
      · left
        have := hdiag.1
        rw [e] at this
        generalize s.st k = a at this
        generalize (P.node k).type = t at this
        cases this <;> simp [Running]
    · refine hold k r hkn (h.N.held k ?_ r hr)
      rw [e1, set_ne _ _ _ _ hkn, e5, e2, set_ne _ _ _ _ hkn] at hk
      rcases hk with hk | ⟨hk1, hk2⟩
      · exact .inl hk
      · exact .inr ⟨by rw [hc]; simp [hk1], hk2⟩
  · intro k
    rw [e8, lastState_append, h.N.hist k, e1, set_apply]
    have : lastState k (.trans n (s.st n) d.state s.base ::
        (if d.state = .executing then [.start n (atStart P n d.state s1)] else [])) (s.st k) = if n = k then d.state else s.st k := by
      split <;> rfl
    rw [this]
    by_cases hkn : k = n
    · subst hkn; simp
    · rw [if_neg (fun e => hkn e.symm), if_neg hkn]
  · rw [e8]
    have h1 : LogOK P (s.log ++ [.trans n (s.st n) d.state s.base]) := h.N.log.snoc ⟨hhist, d, o, hd, rfl, hst, hex, hbase⟩
    have := h1.append (l := if d.state = .executing then [.start n (atStart P n d.state s1)] else [])
      (by intro e he; split at he <;> simp at he; subst he; trivial)
    simpa using this

/-! ## End of a macro step -/

/-- Nothing but variables, acknowledgements, output queues, the environment and the log changes. -/
theorem Inv.output {s s' : St Val Env} (h : Inv P s) (l : List (Event Val Env)) (hl : ∀ e ∈ l, NoTrans e)
    (e1 : s'.st = s.st) (e2 : s'.out = s.out) (e3 : s'.fail = s.fail) (e4 : s'.nx = s.nx) (e5 : s'.nxO = s.nxO) (e6 : s'.nxF = s.nxF)
    (e7 : s'.change = s.change) (e8 : s'.pending = s.pending) (e9 : s'.holder = s.holder) (e10 : s'.log = s.log ++ l)
    (e11 : s'.base = s.base ∨ s.change = []) (q1 : s'.q = s.q) (q2 : s'.cand = s.cand) (q3 : s'.waiters = s.waiters) (q4 : s'.err = s.err) :
    Inv P s' := by
  refine ⟨h.Q.congr q1 q2 e7 e8 q3 q4, ?_⟩
  obtain ⟨g1, g2, g3, g4, g5, g6, g7⟩ := h.N
  constructor
  · intro n hn
    rw [e7] at hn
    rcases e11 with e11 | e11
    · simp only [Decided, e1, e3, e4, e5, e6, e11] at g1 ⊢; exact g1 n hn
    · rw [e11] at hn; simp at hn
  · rw [e5, e6, e7]; exact g2
  · rw [e8, e1, e4, e3]; exact g3
  · rw [e1, e2, e3]; exact g4
  · rw [e1, e7, e4, e9]; exact g5
  · intro n; rw [e10, lastState_append, g6, lastState_noTrans _ _ _ hl, e1]
  · rw [e10]; exact g7.append hl

theorem Inv.assignExec {s : St Val Env} (h : Inv P s) (n) : Inv P (assignExec P s n) := by
  unfold Exec.assignExec
  refine Inv.notifyAll ?_ _
  exact h.output [.assign n (s.fixed n)] (by simp [NoTrans]) rfl rfl rfl rfl rfl rfl rfl rfl rfl rfl (.inl rfl) rfl rfl rfl rfl

theorem Inv.assignRetract {s : St Val Env} (h : Inv P s) (n) : Inv P (assignRetract P s n) := by
  unfold Exec.assignRetract
  refine Inv.notifyAll ?_ _
  exact h.output [.retract n (s.saved (P.node n).dest)] (by simp [NoTrans]) rfl rfl rfl rfl rfl rfl rfl rfl rfl rfl (.inl rfl)
    rfl rfl rfl rfl

theorem Inv.finishStep {s : St Val Env} (h : Inv P s) (acc rej) : Inv P (finishStep P acc rej s) := by
  have h1 : ∀ (l : List NodeId) {s : St Val Env}, Inv P s → Inv P (l.foldl (Exec.assignExec P) s) := by
    intro l
    induction l with
    | nil => intro s h; exact h
    | cons n l ih => intro s h; exact ih (h.assignExec n)
  have h2 : ∀ (l : List NodeId) {s : St Val Env}, Inv P s → Inv P (l.foldl (Exec.assignRetract P) s) := by
    intro l
    induction l with
    | nil => intro s h; exact h
    | cons n l ih => intro s h; exact ih (h.assignRetract n)
  have h3 : Inv P (performAssignments P s) := by
    unfold performAssignments
    have a1 := h1 s.asg h
    generalize s.asg.foldl (Exec.assignExec P) s = x at a1
    have a2 : Inv P { x with asg := [] } := a1.output [] (by simp) rfl rfl rfl rfl rfl rfl rfl rfl rfl (by simp) (.inl rfl) rfl rfl rfl rfl
    have a3 := h2 x.ret a2
    simp only
    generalize x.ret.foldl (Exec.assignRetract P) { x with asg := [] } = y at a3
    exact a3.output [] (by simp) rfl rfl rfl rfl rfl rfl rfl rfl rfl (by simp) (.inl rfl) rfl rfl rfl rfl
  unfold Exec.finishStep
  generalize performAssignments P s = x at h3
  refine h3.output (acc.map (fun n => Event.command n (x.fixed n)) ++ rej.map Event.deny ++
      x.aborts.map Event.abort ++ x.upds.map (fun n => Event.update n (x.fixed n)) ++
      [.stepDone (outbound acc rej x).obs]) ?_ rfl rfl rfl rfl rfl rfl rfl rfl rfl ?_ (.inl rfl) rfl rfl rfl rfl
  · intro e he
    simp only [List.mem_append, List.mem_map, List.mem_singleton] at he
    rcases he with (((⟨_, _, rfl⟩ | ⟨_, _, rfl⟩) | ⟨_, _, rfl⟩) | ⟨_, _, rfl⟩) | rfl <;> trivial
  · simp [outbound]

theorem finishStep_change (acc rej) (s : St Val Env) : (finishStep P acc rej s).change = s.change := by
  have h1 : ∀ (l : List NodeId) (s : St Val Env), (l.foldl (Exec.assignExec P) s).change = s.change := by
    intro l
    induction l with
    | nil => intro s; rfl
    | cons n l ih => intro s; rw [List.foldl_cons, ih]; unfold assignExec; rw [notifyAll_change]
  have h2 : ∀ (l : List NodeId) (s : St Val Env), (l.foldl (Exec.assignRetract P) s).change = s.change := by
    intro l
    induction l with
    | nil => intro s; rfl
    | cons n l ih => intro s; rw [List.foldl_cons, ih]; unfold assignRetract; rw [notifyAll_change]
  show ((performAssignments P s)).change = _
  unfold performAssignments
  simp only [h2, h1]

/-! ## Reachable states -/

theorem Inv.init (vars : Nat → Val) (env : Env) : Inv P (init vars env) := by
  constructor
  · constructor <;> simp [Exec.init, IsTry]
  · constructor <;> simp [Exec.init, LogOK, lastState, Consistent, Running]
    intro n; cases (P.node n).type <;> trivial

theorem Reach.inv {ph : Phase} {s : St Val Env} (h : Reach P ph s) :
    Inv P s ∧ (ph = .idle → s.change = []) ∧ (ph = .check → s.obs = s.base) := by
  induction h with
  | init vars env => exact ⟨Inv.init vars env, fun _ => rfl, (by simp)⟩
  | step _ hs ih =>
    obtain ⟨hI, hid, hch⟩ := ih
    cases hs with
    | ext s e ns =>
      refine ⟨?_, fun _ => by rw [notifyAll_change]; exact hid rfl, (by simp)⟩
      refine Inv.notifyAll ?_ _
      exact hI.output [] (by simp) rfl rfl rfl rfl rfl rfl rfl rfl rfl (by simp) (.inl rfl) rfl rfl rfl rfl
    | ackUpd s n =>
      unfold ackUpdate
      split
      · refine ⟨?_, fun _ => by rw [notifyAll_change]; exact hid rfl, (by simp)⟩
        refine Inv.notifyAll ?_ _
        exact hI.output [] (by simp) rfl rfl rfl rfl rfl rfl rfl rfl rfl (by simp) (.inl rfl) rfl rfl rfl rfl
      · exact ⟨hI, hid, (by simp)⟩
    | deletePlans s =>
      refine ⟨?_, hid, (by simp)⟩
      exact hI.output [] (by simp) rfl rfl rfl rfl rfl rfl rfl rfl rfl (by simp) (.inl rfl) rfl rfl rfl rfl
    | begin s =>
      refine ⟨?_, (by simp), fun _ => rfl⟩
      exact hI.output [] (by simp) rfl rfl rfl rfl rfl rfl rfl rfl rfl (by simp) (.inr (hid rfl)) rfl rfl rfl rfl
    | check s n rest hc =>
      obtain ⟨h1, h2, h3⟩ := hI.checkOne (hch rfl) hc
      exact ⟨h1, (by simp), fun _ => by rw [h2, h3]; exact hch rfl⟩
    | resolve s hc hne =>
      exact ⟨(hI.resolve (hch rfl)).1, (by simp), (by simp)⟩
    | trans s n rest hc =>
      exact ⟨(hI.transOne hc).1, (by simp), (by simp)⟩
    | again s hc hn hne =>
      refine ⟨?_, (by simp), fun _ => rfl⟩
      exact hI.output [] (by simp) rfl rfl rfl rfl rfl rfl rfl rfl rfl (by simp) (.inr hc) rfl rfl rfl rfl
    | finishQuiet s acc rej hc hne hp =>
      refine ⟨(hI.resolve (hch rfl)).1.finishStep acc rej, fun _ => ?_, (by simp)⟩
      rw [finishStep_change]; exact hne
    | finish s acc rej hc hne hp =>
      refine ⟨hI.finishStep acc rej, fun _ => ?_, (by simp)⟩
      rw [finishStep_change]; exact hc

end Verif.Exec
