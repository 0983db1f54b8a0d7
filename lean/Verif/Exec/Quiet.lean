import Verif.Exec.QTrans
import Verif.Exec.NotifySpec
/-
No enabled transition is forgotten.
-/
set_option linter.unusedSimpArgs false
namespace Verif.Exec
open Verif.Node

variable {Val Env : Type} {P : Plan Val Env}

theorem ReachN.reach {ph : Phase} {s : St Val Env} (h : ReachN P ph s) : Reach P ph s := by
  induction h with
  | init vars env => exact .init vars env
  | ext e ns _ _ ih => exact ih.step (.ext _ e ns)
  | ackUpd n _ ih => exact ih.step (.ackUpd _ n)
  | deletePlans _ ih => exact ih.step (.deletePlans _)
  | step _ hs _ ih => exact ih.step hs

/-- Nothing to do for this node, or it is a root that has not been added yet. -/
def QuietAt (P : Plan Val Env) (s : St Val Env) (k : NodeId) : Prop :=
  decideNext P s.obs k = none ∨ ((P.node k).anc = [] ∧ s.st k = .inactive)

def Plain (q : QStatus) : Prop := q = .pending ∨ q = .pendingTry

/-- The node is to start executing. -/
def Ready (P : Plan Val Env) (o : Obs Val Env) (k : NodeId) : Prop := decideNext P o k = some ⟨.executing, .none, .none⟩

structure DInv (P : Plan Val Env) (s : St Val Env) : Prop where
  quiet : ∀ k, s.q k = .none → QuietAt P s k
  pend : ∀ k ∈ s.pending, Plain (s.q k) → Ready P s.obs k
  del : ∀ k, s.q k = .delete → s.st k = .finished ∧ (P.node k).anc = []
  acq : ∀ k, IsPend (s.q k) → acquiresResources P k = true ∧ s.st k = .waiting

/-- How the status of a node may change without the node being looked at. -/
def QLe (x y : QStatus) : Prop := y = x ∨ y = availQ x ∨ y = notifyQ x ∨ y = notifyQ (availQ x)

theorem QLe.refl (x) : QLe x x := .inl rfl
theorem QLe.none {x y} (h : QLe x y) : y = .none → x = .none := by
  revert h; unfold QLe; revert x y; intro x y; cases x <;> cases y <;> simp [availQ, notifyQ, Plain, IsPend]
theorem QLe.delete {x y} (h : QLe x y) : y = .delete → x = .delete := by
  revert h; unfold QLe; revert x y; intro x y; cases x <;> cases y <;> simp [availQ, notifyQ, Plain, IsPend]
theorem QLe.plain {x y} (h : QLe x y) : Plain y → Plain x := by
  revert h; unfold QLe; revert x y; intro x y; cases x <;> cases y <;> simp [availQ, notifyQ, Plain, IsPend]
theorem QLe.isPend {x y} (h : QLe x y) : IsPend y → IsPend x := by
  revert h; unfold QLe; revert x y; intro x y; cases x <;> cases y <;> simp [availQ, notifyQ, Plain, IsPend]

/-- Steps that do not change the situation: every status either changes passively or is right. -/
theorem DInv.same {s s' : St Val Env} (h : DInv P s) (ho : s'.obs = s.obs)
    (hp : ∀ k, k ∈ s'.pending → k ∈ s.pending ∨ (Ready P s.obs k))
    (hq : ∀ k, QLe (s.q k) (s'.q k) ∨ ((s'.q k = .none → decideNext P s.obs k = none) ∧
      (k ∈ s'.pending → Plain (s'.q k) → Ready P s.obs k) ∧ s'.q k ≠ .delete ∧
        (IsPend (s'.q k) → acquiresResources P k = true ∧ s.st k = .waiting))) :
    DInv P s' := by
  have hst : s'.st = s.st := congrArg Obs.st ho
  constructor
  · intro k hk
    unfold QuietAt
    rw [ho, hst]
    rcases hq k with g | ⟨g, _⟩
    · exact h.quiet k (g.none hk)
    · exact .inl (g hk)
  · intro k hk hpl
    rw [ho]
    rcases hq k with g | ⟨_, g, _⟩
    · rcases hp k hk with hk | hk
      · exact h.pend k hk (g.plain hpl)
      · exact hk
    · exact g hk hpl
  · intro k hk
    rw [hst]
    rcases hq k with g | ⟨_, _, g, _⟩
    · exact h.del k (g.delete hk)
    · exact absurd hk g
  · intro k hk
    rw [hst]
    rcases hq k with g | ⟨_, _, _, g⟩
    · exact h.acq k (g.isPend hk)
    · exact g hk

theorem notifyQ_none (x : QStatus) : notifyQ x ≠ .none := by cases x <;> simp [notifyQ]
theorem notifyQ_plain (x : QStatus) : ¬ Plain (notifyQ x) := by cases x <;> simp [notifyQ, Plain]

@[simp] theorem notifyAll_obs (ns) (s : St Val Env) : (notifyAll ns s).obs = s.obs := by simp [St.obs]

/-- The situation changes and the nodes `ns` are notified, including all whose decision changes. -/
theorem DInv.change {s s1 : St Val Env} (h : DInv P s) (ns : List NodeId) (hp : s1.pending = s.pending) (hq : s1.q = s.q)
    (hst : s1.st = s.st) (hd : ∀ k, decideNext P s.obs k ≠ decideNext P s1.obs k → k ∈ ns) : DInv P (notifyAll ns s1) := by
  constructor
  · intro k hk
    rw [notifyAll_q, hq] at hk
    split at hk
    · exact absurd hk (notifyQ_none _)
    · rename_i hn
      have hsame : decideNext P s.obs k = decideNext P s1.obs k := Classical.byContradiction fun e => hn (hd k e)
      have := h.quiet k hk
      unfold QuietAt at *
      rw [notifyAll_obs, ← hsame, notifyAll_st, hst]; exact this
  · intro k hk hpl
    rw [notifyAll_q, hq] at hpl
    split at hpl
    · exact absurd hpl (notifyQ_plain _)
    · rename_i hn
      have hsame : decideNext P s.obs k = decideNext P s1.obs k := Classical.byContradiction fun e => hn (hd k e)
      unfold Ready
      rw [notifyAll_obs, ← hsame]
      exact h.pend k (by rw [notifyAll_pending, hp] at hk; exact hk) hpl
  · intro k hk
    rw [notifyAll_q, hq] at hk
    rw [notifyAll_st, hst]
    split at hk
    · exact h.del k (QLe.delete (.inr (.inr (.inl rfl))) hk)
    · exact h.del k hk
  · intro k hk
    rw [notifyAll_q, hq] at hk
    rw [notifyAll_st, hst]
    split at hk
    · exact h.acq k (QLe.isPend (.inr (.inr (.inl rfl))) hk)
    · exact h.acq k hk

theorem computeNext_obs (n) (s : St Val Env) : (computeNext P n s).obs = s.obs := by unfold computeNext; split <;> rfl
theorem computeNext_q (n) (s : St Val Env) : (computeNext P n s).q = s.q := by unfold computeNext; split <;> rfl
theorem computeNext_pending (n) (s : St Val Env) : (computeNext P n s).pending = s.pending := by unfold computeNext; split <;> rfl
theorem computeNext_nx_self (n) (s : St Val Env) : (computeNext P n s).nx n = (decideNext P s.obs n).map Dest.state := by
  unfold computeNext; split <;> rename_i h <;> simp [h]

theorem decide_exec {o : Obs Val Env} {n} {d : Dest} (h : decideNext P o n = some d) (hd : d.state = .executing) :
    Ready P o n := by unfold Ready; rw [h, (getDest_executing h hd).2]

theorem addStateChange_obs (n) (s : St Val Env) : (addStateChange n s).obs = s.obs := by unfold addStateChange; split <;> rfl
theorem addStateChange_pending (n) (s : St Val Env) : (addStateChange n s).pending = s.pending := by unfold addStateChange; split <;> rfl
theorem addStateChange_q (n k) (s : St Val Env) (h : s.q n = .none) : (addStateChange n s).q k = if k = n then .transition else s.q k := by
  unfold addStateChange; rw [if_pos h]; simp [Exec.set]
theorem removePending_q (n k) (s : St Val Env) : (removePending P n s).q k = if k = n then .none else s.q k := by
  unfold removePending; rw [releaseReservations_q]; rfl
theorem removePending_obs (n) (s : St Val Env) : (removePending P n s).obs = s.obs := by
  obtain ⟨w, h, _⟩ := removePending_fields (P := P) n s; rw [h]; rfl
theorem removePending_pending (n) (s : St Val Env) : (removePending P n s).pending = s.pending.erase n := by
  obtain ⟨w, h, _⟩ := removePending_fields (P := P) n s; rw [h]

theorem computeNext_cases (n) (s : St Val Env) :
    ((computeNext P n s).nx n = none ∧ decideNext P s.obs n = none) ∨
    (∃ d, (computeNext P n s).nx n = some d ∧ d ≠ .executing) ∨ ((computeNext P n s).nx n = some .executing ∧ Ready P s.obs n) := by
  rw [computeNext_nx_self]
  cases hd : decideNext P s.obs n with
  | none => exact .inl ⟨rfl, rfl⟩
  | some d =>
    by_cases e : d.state = .executing
    · exact .inr (.inr ⟨by simp [e], decide_exec hd e⟩)
    · exact .inr (.inl ⟨d.state, rfl, e⟩)

theorem DInv.checkOne {s : St Val Env} (h : DInv P s) {n rest} :
    DInv P (checkOne P n { s with cand := rest }) := by
  unfold Exec.checkOne
  simp only
  generalize hs0 : ({ s with cand := rest, q := set s.q n .none } : St Val Env) = s0
  have ho : s0.obs = s.obs := by rw [← hs0]; rfl
  have hq0 : ∀ k, s0.q k = if k = n then .none else s.q k := by intro k; rw [← hs0]; simp [Exec.set]
  have hp0 : s0.pending = s.pending := by rw [← hs0]
  rcases computeNext_cases (P := P) n s0 with ⟨h1, h2⟩ | ⟨d, h1, h2⟩ | ⟨h1, h2⟩ <;> rw [h1] <;> simp only
  · refine h.same ((computeNext_obs _ _).trans ho) (fun k hk => .inl ?_) (fun k => ?_)
    · rw [computeNext_pending, hp0] at hk; exact hk
    · rw [computeNext_q, hq0]
      by_cases e : k = n
      · right; subst e; rw [ho] at h2; simp [h2, Plain, IsPend]
      · left; simp [e, QLe.refl]
  · rw [if_neg (fun hh => h2 hh.1)]
    have hqn : (computeNext P n s0).q n = .none := by rw [computeNext_q, hq0]; simp
    refine h.same (by rw [addStateChange_obs, computeNext_obs, ho]) (fun k hk => .inl ?_) (fun k => ?_)
    · rw [addStateChange_pending, computeNext_pending, hp0] at hk; exact hk
    · rw [addStateChange_q _ _ _ hqn, computeNext_q, hq0]
      by_cases e : k = n
      · right; simp [e, Plain, IsPend]
      · left; simp [e, QLe.refl]
  · rw [ho] at h2
    split
    · rename_i hex
      refine h.same (s' := addPending P n (computeNext P n s0)) ((computeNext_obs _ _).trans ho) (fun k hk => ?_) (fun k => ?_)
      · rcases (mem_insertPending n k _).1 hk with e | e
        · exact .inr (e ▸ h2)
        · rw [computeNext_pending, hp0] at e; exact .inl e
      · by_cases e : k = n
        · right; subst e
          exact ⟨fun hh => by simp [addPending] at hh, fun _ _ => h2, by simp [addPending], fun _ => ⟨hex.2, (getDest_executing (hd := rfl) h2).1⟩⟩
        · left
          have : (addPending P n (computeNext P n s0)).q k = s.q k := by
            simp only [addPending, Exec.set, e, if_false, computeNext_q, hq0]
          rw [this]; exact .refl _
    · have hqn : (computeNext P n s0).q n = .none := by rw [computeNext_q, hq0]; simp
      refine h.same (by rw [addStateChange_obs, computeNext_obs, ho]) (fun k hk => .inl ?_) (fun k => ?_)
      · rw [addStateChange_pending, computeNext_pending, hp0] at hk; exact hk
      · rw [addStateChange_q _ _ _ hqn, computeNext_q, hq0]
        by_cases e : k = n
        · right; simp [e, Plain, IsPend]
        · left; simp [e, QLe.refl]

theorem DInv.eligible {s : St Val Env} (hI : Inv P s) (h : DInv P s) {n} (hn : n ∈ s.pending) :
    DInv P (eligible P n s).2.2 ∧ ((eligible P n s).1 = true → Ready P s.obs n) := by
  have hacq := h.acq n (hI.Q.pendQ n hn)
  have hmem : ∀ k, k ∈ s.pending.erase n → k ∈ s.pending := fun k hk => List.mem_of_mem_erase hk
  have hnm : n ∉ s.pending.erase n := fun hm => absurd rfl ((hI.Q.pendingNodup.mem_erase_iff).1 hm).1
  have hrq : (removePending P n (computeNext P n s)).q n = .none := by rw [removePending_q]; simp
  have obR : (removePending P n (computeNext P n s)).obs = s.obs := by rw [removePending_obs, computeNext_obs]
  unfold Exec.eligible
  split
  · simp only
    rcases computeNext_cases (P := P) n s with ⟨h1, h2⟩ | ⟨d, h1, h2⟩ | ⟨h1, h2⟩ <;> rw [h1] <;> simp only
    · refine ⟨h.same obR (fun k hk => .inl ?_) (fun k => ?_), by simp⟩
      · simp only [removePending_pending, computeNext_pending] at hk; exact hmem k hk
      · simp only [Exec.set, removePending_pending, computeNext_pending, removePending_q, computeNext_q]
        by_cases e : k = n
        · right; subst e; simp [hnm, hacq]
        · left; simp [e, QLe.refl]
    · rw [if_pos h2]
      refine ⟨h.same (s' := { Exec.addStateChange n (removePending P n (computeNext P n s)) with
          q := set (Exec.addStateChange n (removePending P n (computeNext P n s))).q n QStatus.pending })
          ((addStateChange_obs n _).trans obR) (fun k hk => .inl ?_) (fun k => ?_), by simp⟩
      · simp only [addStateChange_pending, removePending_pending, computeNext_pending] at hk; exact hmem k hk
      · simp only [addStateChange_pending, removePending_pending, computeNext_pending]
        by_cases e : k = n
        · right; subst e; simp [hnm, hacq]
        · left; simp only [set_ne _ _ _ _ e, addStateChange_q _ _ _ hrq, removePending_q, computeNext_q, e, if_false]; exact .refl _
    · refine ⟨h.same (s' := { computeNext P n s with q := set (computeNext P n s).q n QStatus.pending })
          (computeNext_obs n s) (fun k hk => .inl ?_) (fun k => ?_), by simp⟩
      · exact computeNext_pending (P := P) n s ▸ hk
      · by_cases e : k = n
        · right; subst e; simp [hacq, h2]
        · left; simp only [set_ne _ _ _ _ e, computeNext_q]; exact .refl _
  · simp only
    rcases computeNext_cases (P := P) n s with ⟨h1, h2⟩ | ⟨d, h1, h2⟩ | ⟨h1, h2⟩ <;> rw [h1] <;> simp only
    · refine ⟨h.same obR (fun k hk => .inl ?_) (fun k => ?_), by simp⟩
      · rw [removePending_pending, computeNext_pending] at hk; exact hmem k hk
      · rw [removePending_q, computeNext_q]
        by_cases e : k = n
        · right; subst e; simp [h2, Plain, IsPend]
        · left; simp [e, QLe.refl]
    · rw [if_pos h2]
      refine ⟨h.same ((addStateChange_obs n _).trans obR) (fun k hk => .inl ?_) (fun k => ?_), by simp⟩
      · rw [addStateChange_pending, removePending_pending, computeNext_pending] at hk; exact hmem k hk
      · simp only
        rw [addStateChange_q _ _ _ hrq, removePending_q, computeNext_q]
        by_cases e : k = n
        · right; subst e; simp [Plain, IsPend]
        · left; simp [e, QLe.refl]
    · refine ⟨h.same (s' := computeNext P n s) (computeNext_obs n s) (fun k hk => .inl ?_) (fun k => .inl ?_), fun _ => h2⟩
      · exact computeNext_pending (P := P) n s ▸ hk
      · rw [computeNext_q]; exact .refl _
  · rename_i hq; exact ⟨h, fun _ => h.pend n hn (.inr hq)⟩
  · exact ⟨h, by simp⟩
  · exact ⟨h.same rfl (fun k hk => .inl hk) (fun k => .inl (.refl _)), by simp⟩

theorem DInv.collect (prio l) {s : St Val Env} (hI : Inv P s) (hb : s.obs = s.base) (h : DInv P s) (hl : l.Nodup)
    (hp : ∀ k ∈ l, k ∈ s.pending) : DInv P (collect P prio l s).2.2 ∧ ∀ k ∈ (collect P prio l s).1, Ready P s.obs k := by
  induction l generalizing s with
  | nil => exact ⟨h, by simp [Exec.collect]⟩
  | cons n rest ih =>
    simp only [Exec.collect]
    obtain ⟨hn, hr⟩ := List.nodup_cons.1 hl
    split
    · obtain ⟨g1, g2, g3, g4, g5, g6⟩ := eligible_spec hI hb (hp n (by simp))
      obtain ⟨d1, d2⟩ := h.eligible hI (hp n (by simp))
      split
      · exact ⟨d1, by simp⟩
      · obtain ⟨i1, i2⟩ := ih g1 (by rw [g2, g3]; exact hb) d1 hr (fun k hk => g4 k (fun e => hn (e ▸ hk)) (hp k (by simp [hk])))
        refine ⟨i1, fun k hk => ?_⟩
        rw [g2] at i2
        split at hk
        · rename_i he
          rcases List.mem_cons.1 hk with e | e
          · rw [e]; exact d2 he
          · exact i2 k e
        · exact i2 k hk
    · exact ⟨h, by simp⟩

theorem DInv.attempt {s : St Val Env} (hI : Inv P s) (h : DInv P s) {n} (hn : n ∈ s.pending) (hr : Ready P s.obs n) :
    DInv P (if (tryAcquire P n s).1 then addStateChange n (removePending P n (tryAcquire P n s).2)
      else { (tryAcquire P n s).2 with q := set (tryAcquire P n s).2.q n .pending }) := by
  have hacq := h.acq n (hI.Q.pendQ n hn)
  have heff := (tryAcquire_eff P n s).q
  have hfr := tryAcquire_frame P n s
  have hob : (tryAcquire P n s).2.obs = s.obs := by obtain ⟨_, _, _, _, e⟩ := hfr; rw [e]; rfl
  have hpe : (tryAcquire P n s).2.pending = s.pending := by obtain ⟨_, _, _, _, e⟩ := hfr; rw [e]
  have hq : ∀ k, QLe (s.q k) ((tryAcquire P n s).2.q k) := by
    intro k; rcases heff k with e | ⟨e, _⟩
    · exact .inl e
    · exact .inr (.inl e)
  generalize (tryAcquire P n s).2 = s1 at *
  split
  · have hrq : (removePending P n s1).q n = .none := by rw [removePending_q]; simp
    refine h.same (by rw [addStateChange_obs, removePending_obs, hob]) (fun k hk => .inl ?_) (fun k => ?_)
    · rw [addStateChange_pending, removePending_pending, hpe] at hk; exact List.mem_of_mem_erase hk
    · rw [addStateChange_q _ _ _ hrq, removePending_q]
      by_cases e : k = n
      · right; subst e; simp [Plain, IsPend]
      · left; simp only [e, if_false]; exact hq k
  · refine h.same (s' := { s1 with q := set s1.q n .pending }) hob (fun k hk => .inl (hpe ▸ hk)) (fun k => ?_)
    by_cases e : k = n
    · right; subst e; simp [hacq, hr]
    · left; simp only [set_ne _ _ _ _ e]; exact hq k

theorem DInv.acquireGroup (ns) {s : St Val Env} (hI : Inv P s) (h : DInv P s) (hnd : ns.Nodup) (hp : ∀ k ∈ ns, k ∈ s.pending)
    (hr : ∀ k ∈ ns, Ready P s.obs k) : DInv P (acquireGroup P ns s) := by
  induction ns generalizing s with
  | nil => exact h
  | cons n ns ih =>
    obtain ⟨hn, hnd⟩ := List.nodup_cons.1 hnd
    obtain ⟨i1, i2⟩ := hI.attempt (hp n (by simp))
    have hobs : (Exec.acquireGroup P [n] s).obs = s.obs := (acquireGroup_spec [n] hI (by simp) (by simpa using hp n (by simp))).2.1
    simp only [Exec.acquireGroup] at hobs ⊢
    exact ih i1 (h.attempt hI (hp n (by simp)) (hr n (by simp))) hnd
      (fun k hk => i2 k (fun e => hn (e ▸ hk)) (hp k (by simp [hk]))) (fun k hk => by rw [hobs]; exact hr k (by simp [hk]))

theorem DInv.resolveFrom (l) {s : St Val Env} (hI : Inv P s) (hb : s.obs = s.base) (h : DInv P s) (hl : l.Nodup)
    (hp : ∀ k ∈ l, k ∈ s.pending) : DInv P (resolveFrom P l s) := by
  generalize hlen : l.length = len
  induction len using Nat.strongRecOn generalizing l s with
  | _ len ih =>
    cases l with
    | nil => rw [Exec.resolveFrom]; exact h
    | cons n rest =>
      rw [Exec.resolveFrom]
      have hc := collect_spec (P.node n).priority (n :: rest) hI hb hl hp
      obtain ⟨hH, hR⟩ := h.collect (P.node n).priority (n :: rest) hI hb hl hp
      have hlt : (Exec.collect P (P.node n).priority (n :: rest) s).2.1.length < (n :: rest).length := by
        simp only [Exec.collect, if_true]
        split
        · simp
        · have := collect_length P (P.node n).priority rest (Exec.eligible P n s).2.2
          simp only [List.length_cons]
          omega
      generalize Exec.collect P (P.node n).priority (n :: rest) s = t at hc hlt hH hR
      obtain ⟨g1, g2, g3, _, g5, g6, g7, g8⟩ := hc
      obtain ⟨a1, a2, a3, a4⟩ := acquireGroup_spec t.1 g1 g6 (fun k hk => (g5 k hk).2)
      exact ih t.2.1.length (by omega) t.2.1 a1 (by rw [a2, a3, g2, g3, hb])
        (hH.acquireGroup t.1 g1 g6 (fun k hk => (g5 k hk).2) (fun k hk => by rw [g2]; exact hR k hk)) g8
        (fun k hk => a4 k (g7 k hk).2.2 (g7 k hk).2.1) rfl

theorem DInv.resolve {s : St Val Env} (hI : Inv P s) (hb : s.obs = s.base) (h : DInv P s) : DInv P (resolve P s) :=
  h.resolveFrom _ hI hb hI.Q.pendingNodup (fun _ hk => hk)

/-! ## Transitions -/

theorem getDest_parent {t a p p' f c} (h1 : a ≠ .inactive) (h2 : a ≠ .finished) : getDest t a p f c = getDest t a p' f c := by
  cases a <;> first | rfl | exact absurd rfl h1 | exact absurd rfl h2

theorem transition_moved (n b) (s : St Val Env) (hb : s.nx n = some b) (hne : b ≠ s.st n) :
    MovedBy P n s.obs (transition P n s).obs := by
  constructor
  · intro m hm; show (transition P n s).st m = s.st m; rw [transition_st P n s b hb hne, set_ne _ _ _ _ hm]
  · intro m hm; show (transition P n s).out m = s.out m; rw [transition_out P n s b hb hne, if_neg hm]
  · intro m hm; show (transition P n s).fail m = s.fail m; rw [transition_fail P n s b hb hne, if_neg hm]
  · intro m hm; show (transition P n s).ack m = s.ack m
    rw [transition_ack P n s b hb hne]; split
    · exact set_ne _ _ _ _ hm
    · rfl
  · intro m hm; show (transition P n s).abort m = s.abort m
    rw [transition_abort P n s b hb hne]; split
    · exact set_ne _ _ _ _ hm
    · rfl
  · intro v hv
    show (transition P n s).vars v = s.vars v
    rw [transition_vars P n s b hb hne, enterVars_other n b _ v (fun _ => hv)]
    unfold transFrom resetNode; split <;> rfl
  · show (transition P n s).env = s.env ∨ (transition P n s).env = P.enter n s.env
    rw [transition_stages P n s b hb hne]
    have h1 : (transTo P n (s.st n) b (transFrom n (s.st n) b s)).env = s.env := by simp
    generalize transTo P n (s.st n) b (transFrom n (s.st n) b s) = s1 at h1
    simp only [notifyAll_env]
    by_cases hx : b = .executing
    · rw [if_pos hx]
      unfold execBody activateBody
      by_cases ht : (P.node n).type = .command ∨ (P.node n).type = .update
      · right; cases hty : (P.node n).type <;> simp_all
      · left; cases hty : (P.node n).type <;> simp_all
    · rw [if_neg hx]; left; simp [h1]

theorem midObs_st (n b) (s : St Val Env) : (midObs P n b s).st = s.st := by
  unfold midObs; simp [St.obs]
theorem midObs_env (n b) (s : St Val Env) : (midObs P n b s).env = s.env := by
  unfold midObs; simp [St.obs]
theorem midObs_vars (n b) (s : St Val Env) (hb : s.nx n = some b) (hne : b ≠ s.st n) :
    (midObs P n b s).vars = (transition P n s).obs.vars := by
  show (transTo P n (s.st n) b (transFrom n (s.st n) b s)).vars = (transition P n s).vars
  rw [transition_stages P n s b hb hne]
  generalize transTo P n (s.st n) b (transFrom n (s.st n) b s) = s1
  simp only [notifyAll_vars]
  split <;> simp

theorem decideWith_or (hT : TreeOK P) {n b} {s : St Val Env} (hb : s.nx n = some b) (hne : b ≠ s.st n) {k} (hk : k ≠ n)
    (hw : k ∉ childrenToNotify P n b { s with st := set s.st n b }) :
    decideWith P s.obs (transition P n s).obs k = decideNext P s.obs k ∨
    (decideNext P (transition P n s).obs k = none ∧ s.st k ≠ .waiting) := by
  have hm := transition_moved (P := P) n b s hb hne
  have h1 : (transition P n s).obs.st k = s.obs.st k := hm.st k hk
  have h2 : (transition P n s).obs.fail k = s.obs.fail k := hm.fail k hk
  by_cases hp : (P.node k).anc.head? = some n
  · obtain ⟨t1, t2⟩ := hT k n hp
    have hps : ∀ o : Obs Val Env, parentState P o k = some (o.st n) := by intro o; unfold parentState; rw [hp]; rfl
    have hbn : (transition P n s).obs.st n = b := by
      show (transition P n s).st n = b
      rw [transition_st P n s b hb hne]; simp
    unfold childrenToNotify at hw
    rw [if_pos t1] at hw
    cases hst : s.st k with
    | inactive =>
      right
      refine ⟨?_, by simp⟩
      unfold decideNext
      rw [h1, hps, hbn, show s.obs.st k = .inactive from hst]
      cases b <;> simp [getDest, fromInactive] <;> simp [t2, set_ne _ _ _ _ hk, hst] at hw
    | finished =>
      right
      refine ⟨?_, by simp⟩
      unfold decideNext
      rw [h1, hps, hbn, show s.obs.st k = .finished from hst]
      cases b <;> simp [getDest, fromFinished]
      simp [t2, set_ne _ _ _ _ hk, hst] at hw
    | _ =>
      left
      unfold decideWith decideNext
      rw [h1, h2, show s.obs.st k = s.st k from rfl, hst]
      exact getDest_parent (by simp) (by simp)
  · left
    unfold decideWith decideNext
    rw [h1, h2]
    have : parentState P (transition P n s).obs k = parentState P s.obs k := by
      unfold parentState
      cases hx : (P.node k).anc.head? with
      | none => rfl
      | some m =>
        have : m ≠ n := fun e => hp (by rw [hx, e])
        simp only [Option.map_some]
        rw [hm.st m this]
    rw [this]

theorem DInv.transition (hN : Notifies P) (hT : TreeOK P) {s : St Val Env} {n b} (h : DInv P { s with q := set s.q n .check })
    (hb : s.nx n = some b) (hne : b ≠ s.st n)
    (hq : s.q n = .none ∨ s.q n = .check) (hpn : n ∉ s.pending) (hpw : ∀ k ∈ s.pending, s.st k = .waiting) : DInv P (transition P n s) := by
  have h1 : ∀ k, k ≠ n → s.q k = .none → QuietAt P s k := fun k hk e => h.quiet k (by simp only [set_ne _ _ _ _ hk]; exact e)
  have h2 : ∀ k, k ≠ n → k ∈ s.pending → Plain (s.q k) → Ready P s.obs k :=
    fun k hk e e2 => h.pend k e (by simp only [set_ne _ _ _ _ hk]; exact e2)
  have h3 : ∀ k, k ≠ n → s.q k = .delete → s.st k = .finished ∧ (P.node k).anc = [] :=
    fun k hk e => h.del k (by simp only [set_ne _ _ _ _ hk]; exact e)
  have h4 : ∀ k, k ≠ n → IsPend (s.q k) → acquiresResources P k = true ∧ s.st k = .waiting :=
    fun k hk e => h.acq k (by simp only [set_ne _ _ _ _ hk]; exact e)
  have hself := (transition_q_self (P := P) n b s hb hne hq).imp_left And.left
  have hst := transition_st P n s b hb hne
  have hpen := transition_pending P n s b hb hne
  have key : ∀ k, k ≠ n → k ∉ woken P n b s → decideNext P (Exec.transition P n s).obs k = decideNext P s.obs k ∨
      (decideNext P (Exec.transition P n s).obs k = none ∧ s.st k ≠ .waiting) := by
    intro k hk hw
    unfold woken at hw
    simp only [List.mem_append, not_or] at hw
    obtain ⟨⟨w1, w2⟩, w3⟩ := hw
    have := Classical.byContradiction fun e => (hN.trans n s.obs (midObs P n b s) (Exec.transition P n s).obs
      (transition_moved n b s hb hne) (midObs_st n b s) (midObs_vars n b s hb hne) (midObs_env n b s) k hk e).elim w1 w3
    rcases decideWith_or hT hb hne hk w2 with g | g
    · left; rw [← this, g]
    · exact .inr g
  have qq : ∀ k, k ≠ n → QLe (s.q k) ((Exec.transition P n s).q k) ∧
      (k ∈ woken P n b s → ∃ x, (Exec.transition P n s).q k = notifyQ x) := by
    intro k hk
    obtain ⟨x, hx, hx2⟩ := transition_q (P := P) n b s hb hne k hk
    rw [hx2]
    constructor
    · split
      · rcases hx with rfl | ⟨rfl, _⟩
        · exact .inr (.inr (.inl rfl))
        · exact .inr (.inr (.inr rfl))
      · rcases hx with rfl | ⟨rfl, _⟩
        · exact .inl rfl
        · exact .inr (.inl rfl)
    · intro hw; exact ⟨x, by rw [if_pos hw]⟩
  constructor
  · intro k hk
    have hkn : k ≠ n := by
      intro e; subst e; rcases hself with g | ⟨g, _⟩ <;> rw [g] at hk <;> cases hk
    have hw : k ∉ woken P n b s := by
      intro hw; obtain ⟨x, hx⟩ := (qq k hkn).2 hw; rw [hx] at hk; exact notifyQ_none _ hk
    unfold QuietAt
    rw [hst, set_ne _ _ _ _ hkn]
    rcases key k hkn hw with g | ⟨g, _⟩
    · rw [g]; exact h1 k hkn ((qq k hkn).1.none hk)
    · exact .inl g
  · intro k hk hpl
    rw [hpen] at hk
    have hkn : k ≠ n := fun e => hpn (e ▸ hk)
    have hw : k ∉ woken P n b s := by
      intro hw; obtain ⟨x, hx⟩ := (qq k hkn).2 hw; rw [hx] at hpl; exact notifyQ_plain _ hpl
    rcases key k hkn hw with g | ⟨_, g⟩
    · unfold Ready; rw [g]; exact h2 k hkn hk ((qq k hkn).1.plain hpl)
    · exact absurd (hpw k hk) g
  · intro k hk
    rw [hst]
    by_cases e : k = n
    · subst e
      rcases hself with g | ⟨_, g2, g3⟩
      · rw [g] at hk; cases hk
      · exact ⟨by simp [g2], g3⟩
    · rw [set_ne _ _ _ _ e]; exact h3 k e ((qq k e).1.delete hk)
  · intro k hk
    by_cases e : k = n
    · subst e
      rcases hself with g | ⟨g, _⟩ <;> rw [g] at hk <;> exact hk.elim
    · rw [hst, set_ne _ _ _ _ e]; exact h4 k e ((qq k e).1.isPend hk)

theorem DInv.transOne (hN : Notifies P) (hT : TreeOK P) {s : St Val Env} (hI : Inv P s) (h : DInv P s) {n rest}
    (hc : s.change = n :: rest) : DInv P (transOne P n { s with change := rest }) := by
  obtain ⟨d, o, oo, hd, hos, hnx, hdiag, _⟩ := transOne_fields hI hc
  have hne : d.state ≠ s.st n := by
    intro e; rw [e] at hdiag
    generalize hb : s.st n = b at hdiag
    generalize hx : s.st n = c at hdiag
    rw [hb] at hx; subst hx
    generalize (P.node n).type = t at hdiag
    generalize hy : b = b' at hdiag
    cases hdiag
  have hin : n ∈ s.change := by rw [hc]; simp
  have hnp := hI.Q.disj n hin
  have hpw : ∀ k ∈ s.pending, s.st k = .waiting := fun k hk => (hI.N.pend k hk).1
  have key : ∀ s1 : St Val Env, s1.obs = s.obs → s1.nx = s.nx → s1.pending = s.pending → (∀ k, k ≠ n → s1.q k = s.q k) →
      (s1.q n = .none ∨ s1.q n = .check) → DInv P (Exec.transition P n s1) := by
    intro s1 g1 g2 g3 g4 g5
    have gst : s1.st = s.st := congrArg Obs.st g1
    have hD : DInv P { s1 with q := set s1.q n .check } := by
      refine h.same (s' := { s1 with q := set s1.q n .check }) g1 (fun k hk => .inl (g3 ▸ hk)) (fun k => ?_)
      by_cases e : k = n
      · right; subst e; simp [Plain, IsPend]
      · left; simp only [set_ne _ _ _ _ e, g4 k e]; exact .refl _
    exact DInv.transition hN hT hD (by rw [g2]; exact hnx) (by rw [gst]; exact hne) g5 (by rw [g3]; exact hnp)
      (by rw [g3, gst]; exact hpw)
  unfold Exec.transOne
  apply key
  · simp only; split <;> rfl
  · simp only; split <;> rfl
  · simp only; split <;> rfl
  · intro k hk; simp only; split
    · unfold notify; simp only [set_ne _ _ _ _ hk]
    · exact set_ne _ _ _ _ hk
  · simp only; split
    · right; simp [notify, notifyQ]
    · left; simp

/-! ## End of a macro step, and the environment -/

theorem DInv.assignExec (hN : Notifies P) {s : St Val Env} (h : DInv P s) (n) : DInv P (assignExec P s n) := by
  unfold Exec.assignExec
  simp only
  refine h.change _ (by rfl) (by rfl) (by rfl) (fun k hk => hN.assign n s.obs _ ?_ k hk)
  constructor <;> try rfl
  · intro m hm; simp only [St.obs]; split
    · exact set_ne _ _ _ _ hm
    · rfl
  · intro m hm; rfl
  · intro v hv; exact set_ne _ _ _ _ hv

theorem DInv.assignRetract (hN : Notifies P) {s : St Val Env} (h : DInv P s) (n) : DInv P (assignRetract P s n) := by
  unfold Exec.assignRetract
  simp only
  refine h.change _ (by rfl) (by rfl) (by rfl) (fun k hk => hN.retract n s.obs _ ?_ k hk)
  constructor <;> try rfl
  · intro m hm; rfl
  · intro m hm; simp only [St.obs]; split
    · exact set_ne _ _ _ _ hm
    · rfl
  · intro v hv; exact set_ne _ _ _ _ hv

theorem DInv.foldl {f : St Val Env → NodeId → St Val Env} (hf : ∀ s n, DInv P s → DInv P (f s n)) (l : List NodeId)
    {s : St Val Env} (h : DInv P s) : DInv P (l.foldl f s) := by
  induction l generalizing s with
  | nil => exact h
  | cons n l ih => exact ih (hf s n h)

theorem DInv.finishStep (hN : Notifies P) {s : St Val Env} (h : DInv P s) (acc rej) : DInv P (finishStep P acc rej s) := by
  have h1 : DInv P (s.asg.foldl (Exec.assignExec P) s) := h.foldl (fun s n hs => hs.assignExec hN n) _
  have h2 : DInv P { s.asg.foldl (Exec.assignExec P) s with asg := [] } :=
    h1.same rfl (fun _ hk => .inl hk) (fun _ => .inl (.refl _))
  have h3 := h2.foldl (fun s n hs => hs.assignRetract hN n) (s.asg.foldl (Exec.assignExec P) s).ret
  exact h3.same (s' := Exec.finishStep P acc rej s) rfl (fun _ hk => .inl hk) (fun _ => .inl (.refl _))

theorem DInv.ackUpdate (hN : Notifies P) {s : St Val Env} (h : DInv P s) (n) : DInv P (ackUpdate P n s) := by
  unfold Exec.ackUpdate
  split
  · simp only
    refine h.change _ (by rfl) (by rfl) (by rfl) (fun k hk => hN.ack n s.obs _ ?_ (by rfl) k hk)
    constructor <;> try rfl
    · intro m hm; exact set_ne _ _ _ _ hm
    · intro m hm; rfl
    · intro m hm; rfl
  · exact h

theorem ReachN.dinv (hN : Notifies P) (hT : TreeOK P) {ph : Phase} {s : St Val Env} (h : ReachN P ph s) : DInv P s := by
  induction h with
  | init vars env =>
    constructor
    · intro k _
      by_cases e : (P.node k).anc = []
      · exact .inr ⟨e, rfl⟩
      · left
        obtain ⟨p, l, hp⟩ := List.exists_cons_of_ne_nil e
        unfold decideNext parentState
        rw [hp]; rfl
    · intro k hk; cases hk
    · intro k hk; cases hk
    · intro k hk; exact hk.elim
  | ext e ns _ hns ih => exact ih.change ns rfl rfl rfl (fun k hk => hns k (fun e => hk e.symm))
  | ackUpd n _ ih => exact ih.ackUpdate hN n
  | deletePlans _ ih => exact ih.same rfl (fun _ hk => .inl hk) (fun _ => .inl (.refl _))
  | @step ph ph' s s' hr hs hid ih =>
    obtain ⟨hI, _, hchk⟩ := hr.reach.inv
    cases hs with
    | ext _ e ns => exact absurd ⟨rfl, rfl⟩ hid
    | ackUpd _ n => exact absurd ⟨rfl, rfl⟩ hid
    | deletePlans _ => exact absurd ⟨rfl, rfl⟩ hid
    | begin _ => exact ih.same rfl (fun _ hk => .inl hk) (fun _ => .inl (.refl _))
    | check _ n rest hc => exact ih.checkOne
    | resolve _ hc hne => exact ih.resolve hI (hchk rfl)
    | trans _ n rest hc => exact ih.transOne hN hT hI hc
    | again _ hc hn hne => exact ih.same rfl (fun _ hk => .inl hk) (fun _ => .inl (.refl _))
    | finishQuiet _ acc rej hc hne hp => exact (ih.resolve hI (hchk rfl)).finishStep hN acc rej
    | finish _ acc rej hc hne hp => exact ih.finishStep hN acc rej

end Verif.Exec
