import Verif.Exec.Sync
/-
Which nodes can be waiting for resources.
-/
set_option autoImplicit false
set_option linter.unusedSimpArgs false
namespace Verif.Exec
open Verif.Node

variable {Val Env : Type} {P : Plan Val Env}

/-- Nodes waiting for resources afterwards did so before, or satisfy `R`. -/
def PendLe (R : NodeId → Prop) (s s' : St Val Env) : Prop := ∀ k, IsPend (s'.q k) → IsPend (s.q k) ∨ R k

theorem PendLe.refl (R) (s : St Val Env) : PendLe R s s := fun _ h => .inl h

theorem PendLe.trans {R} {s s' s'' : St Val Env} (h1 : PendLe R s s') (h2 : PendLe R s' s'') : PendLe R s s'' := by
  intro k hk
  rcases h2 k hk with g | g
  · exact h1 k g
  · exact .inr g

theorem PendLe.notifyAll {R} {s s1 : St Val Env} (ns : List NodeId) (hq : s1.q = s.q) : PendLe R s (notifyAll ns s1) := by
  intro k hk
  rw [notifyAll_q, hq] at hk
  split at hk
  · exact .inl (QLe.isPend (.inr (.inr (.inl rfl))) hk)
  · exact .inl hk

theorem PendLe.of_q {R} {s s1 : St Val Env} (hq : s1.q = s.q) : PendLe R s s1 := by
  intro k hk; rw [hq] at hk; exact .inl hk

theorem PendLe.checkOne {s : St Val Env} {n rest} : PendLe (Ready P s.obs) s (checkOne P n { s with cand := rest }) := by
  unfold Exec.checkOne
  simp only
  generalize hs0 : ({ s with cand := rest, q := set s.q n .none } : St Val Env) = s0
  have ho : s0.obs = s.obs := by rw [← hs0]; rfl
  have hq0 : ∀ k, s0.q k = if k = n then .none else s.q k := by intro k; rw [← hs0]; simp [Exec.set]
  have hqn : (computeNext P n s0).q n = .none := by rw [computeNext_q, hq0]; simp
  have other : ∀ k, k ≠ n → s0.q k = s.q k := fun k e => by rw [hq0]; simp [e]
  have chg : PendLe (Ready P s.obs) s (addStateChange n (computeNext P n s0)) := by
    intro k hk
    rw [addStateChange_q _ _ _ hqn, computeNext_q] at hk
    by_cases e : k = n
    · rw [if_pos e] at hk; exact hk.elim
    · rw [if_neg e, other k e] at hk; exact .inl hk
  rcases computeNext_cases (P := P) n s0 with ⟨h1, h2⟩ | ⟨d, h1, h2⟩ | ⟨h1, h2⟩ <;> rw [h1] <;> simp only
  · intro k hk
    rw [computeNext_q] at hk
    by_cases e : k = n
    · rw [hq0, if_pos e] at hk; exact hk.elim
    · rw [other k e] at hk; exact .inl hk
  · rw [if_neg (fun hh => h2 hh.1)]; exact chg
  · split
    · intro k hk
      by_cases e : k = n
      · right; rw [e, ← ho]; exact h2
      · left
        have : (addPending P n (computeNext P n s0)).q k = s.q k := by
          simp only [addPending, Exec.set, e, if_false, computeNext_q, hq0]
        rw [this] at hk; exact hk
    · exact chg

theorem PendLe.eligible {R} {s : St Val Env} {n} : PendLe R s (eligible P n s).2.2 := by
  have hrq : (removePending P n (computeNext P n s)).q n = .none := by rw [removePending_q]; simp
  have setP : ∀ s1 : St Val Env, IsPend (s.q n) → (∀ k, k ≠ n → s1.q k = s.q k) → PendLe R s { s1 with q := set s1.q n .pending } := by
    intro s1 hp h k hk
    by_cases e : k = n
    · rw [e]; exact .inl hp
    · simp only [set_ne _ _ _ _ e, h k e] at hk; exact .inl hk
  have rem : ∀ k, k ≠ n → (removePending P n (computeNext P n s)).q k = s.q k := by
    intro k e; rw [removePending_q, computeNext_q, if_neg e]
  have chg : ∀ k, k ≠ n → (addStateChange n (removePending P n (computeNext P n s))).q k = s.q k := by
    intro k e; rw [addStateChange_q _ _ _ hrq, if_neg e]; exact rem k e
  unfold Exec.eligible
  split <;> rename_i hq
  · have hp : IsPend (s.q n) := by rw [hq]; trivial
    simp only
    rcases computeNext_cases (P := P) n s with ⟨h1, h2⟩ | ⟨d, h1, h2⟩ | ⟨h1, h2⟩ <;> rw [h1] <;> simp only
    · exact setP _ hp rem
    · rw [if_pos h2]; exact setP _ hp chg
    · exact setP _ hp fun k _ => by rw [computeNext_q]
  · have hp : IsPend (s.q n) := by rw [hq]; trivial
    have only : ∀ s1 : St Val Env, (∀ k, k ≠ n → s1.q k = s.q k) → PendLe R s s1 := by
      intro s1 h k hk
      by_cases e : k = n
      · rw [e]; exact .inl hp
      · rw [h k e] at hk; exact .inl hk
    simp only
    rcases computeNext_cases (P := P) n s with ⟨h1, h2⟩ | ⟨d, h1, h2⟩ | ⟨h1, h2⟩ <;> rw [h1] <;> simp only
    · exact only _ rem
    · rw [if_pos h2]; exact only _ chg
    · exact only _ fun k _ => by simp [computeNext_q]
  · exact .refl _ _
  · exact .refl _ _
  · exact .of_q rfl

theorem PendLe.collect {R} (prio l) {s : St Val Env} : PendLe R s (collect P prio l s).2.2 := by
  induction l generalizing s with
  | nil => exact .refl _ _
  | cons n rest ih =>
    simp only [Exec.collect]
    split
    · split
      · exact .eligible
      · exact .trans .eligible ih
    · exact .refl _ _

theorem PendLe.acquireGroup {R} (ns) {s : St Val Env} (hI : Inv P s) (hnd : ns.Nodup) (hp : ∀ k ∈ ns, k ∈ s.pending) :
    PendLe R s (acquireGroup P ns s) := by
  induction ns generalizing s with
  | nil => exact .refl _ _
  | cons n ns ih =>
    obtain ⟨hn, hnd⟩ := List.nodup_cons.1 hnd
    obtain ⟨i1, i2⟩ := hI.attempt (hp n (by simp))
    simp only [Exec.acquireGroup]
    refine .trans ?_ (ih i1 hnd (fun k hk => i2 k (fun e => hn (e ▸ hk)) (hp k (by simp [hk]))))
    have hpn := hI.Q.pendQ n (hp n (by simp))
    have heff := (tryAcquire_eff P n s).q
    have hq : ∀ k, QLe (s.q k) ((tryAcquire P n s).2.q k) := by
      intro k; rcases heff k with e | ⟨e, _⟩
      · exact .inl e
      · exact .inr (.inl e)
    generalize (tryAcquire P n s).2 = s1 at *
    split
    · have hrq : (removePending P n s1).q n = .none := by rw [removePending_q]; simp
      intro k hk
      rw [addStateChange_q _ _ _ hrq, removePending_q] at hk
      by_cases e : k = n
      · rw [if_pos e] at hk; exact hk.elim
      · rw [if_neg e, if_neg e] at hk; exact .inl ((hq k).isPend hk)
    · intro k hk
      by_cases e : k = n
      · rw [e]; exact .inl hpn
      · simp only [set_ne _ _ _ _ e] at hk; exact .inl ((hq k).isPend hk)

theorem PendLe.resolveFrom {R} (l) {s : St Val Env} (hI : Inv P s) (hb : s.obs = s.base) (hl : l.Nodup) (hp : ∀ k ∈ l, k ∈ s.pending) :
    PendLe R s (resolveFrom P l s) := by
  generalize hlen : l.length = len
  induction len using Nat.strongRecOn generalizing l s with
  | _ len ih =>
    cases l with
    | nil => rw [Exec.resolveFrom]; exact .refl _ _
    | cons n rest =>
      rw [Exec.resolveFrom]
      have hc := collect_spec (P.node n).priority (n :: rest) hI hb hl hp
      have hC : PendLe R s (Exec.collect P (P.node n).priority (n :: rest) s).2.2 := .collect _ _
      have hlt : (Exec.collect P (P.node n).priority (n :: rest) s).2.1.length < (n :: rest).length := by
        simp only [Exec.collect, if_true]
        split
        · simp
        · have := collect_length P (P.node n).priority rest (Exec.eligible P n s).2.2
          simp only [List.length_cons]
          omega
      generalize Exec.collect P (P.node n).priority (n :: rest) s = t at hc hlt hC
      obtain ⟨g1, g2, g3, _, g5, g6, g7, g8⟩ := hc
      obtain ⟨a1, a2, a3, a4⟩ := acquireGroup_spec t.1 g1 g6 (fun k hk => (g5 k hk).2)
      exact .trans hC (.trans (.acquireGroup _ g1 g6 fun k hk => (g5 k hk).2)
        (ih t.2.1.length (by omega) t.2.1 a1 (by rw [a2, a3, g2, g3, hb]) g8 (fun k hk => a4 k (g7 k hk).2.2 (g7 k hk).2.1) rfl))

theorem PendLe.resolve {R} {s : St Val Env} (hI : Inv P s) (hb : s.obs = s.base) : PendLe R s (resolve P s) :=
  .resolveFrom _ hI hb hI.Q.pendingNodup fun _ hk => hk

/-- After its transition a node waits for nothing, and nobody begins to. -/
theorem pend_transOne {s : St Val Env} (hI : Inv P s) {n rest} (hc : s.change = n :: rest) {k : NodeId}
    (hk : IsPend ((transOne P n { s with change := rest }).q k)) : k ≠ n ∧ IsPend (s.q k) := by
  obtain ⟨d, o, oo, hd, hos, hnx, hdiag, _⟩ := transOne_fields hI hc
  have hne : d.state ≠ s.st n := by
    have := getDest_ne hd (by rw [hos]; exact (hI.N.ok n).1); rw [hos] at this; exact this
  have key : ∀ s1 : St Val Env, s1.nx = s.nx → s1.st = s.st → (∀ k, k ≠ n → s1.q k = s.q k) →
      (s1.q n = .none ∨ s1.q n = .check) → IsPend ((Exec.transition P n s1).q k) → k ≠ n ∧ IsPend (s.q k) := by
    intro s1 g1 g2 g3 g4 hk
    have hb : s1.nx n = some d.state := by rw [g1]; exact hnx
    have hne' : d.state ≠ s1.st n := by rw [g2]; exact hne
    have hkn : k ≠ n := by
      intro e; subst e
      rcases (transition_q_self (P := P) k d.state s1 hb hne' g4).imp_left And.left with g | ⟨g, _⟩ <;> rw [g] at hk <;> exact hk.elim
    refine ⟨hkn, ?_⟩
    rw [← g3 k hkn]
    obtain ⟨x, hx, hx2⟩ := transition_q (P := P) n d.state s1 hb hne' k hkn
    rw [hx2] at hk
    refine QLe.isPend (y := if k ∈ woken P n d.state s1 then notifyQ x else x) ?_ hk
    split
    · rcases hx with rfl | ⟨rfl, _⟩
      · exact .inr (.inr (.inl rfl))
      · exact .inr (.inr (.inr rfl))
    · rcases hx with rfl | ⟨rfl, _⟩
      · exact .inl rfl
      · exact .inr (.inl rfl)
  unfold Exec.transOne at hk
  refine key _ ?_ ?_ ?_ ?_ hk
  · simp only; split <;> rfl
  · simp only; split <;> rfl
  · intro k hk; simp only; split
    · unfold notify; simp only [set_ne _ _ _ _ hk]
    · exact set_ne _ _ _ _ hk
  · simp only; split
    · right; simp [notify, notifyQ]
    · left; simp

theorem PendLe.foldl {R} {f : St Val Env → NodeId → St Val Env} (hf : ∀ s n, PendLe R s (f s n)) (l : List NodeId) (s : St Val Env) :
    PendLe R s (l.foldl f s) := by
  induction l generalizing s with
  | nil => exact .refl _ _
  | cons n l ih => exact .trans (hf s n) (ih _)

theorem PendLe.finishStep {R} (s : St Val Env) (acc rej) : PendLe R s (finishStep P acc rej s) := by
  have h1 : PendLe R s (s.asg.foldl (Exec.assignExec P) s) := .foldl (fun s n => by unfold assignExec; exact .notifyAll _ rfl) _ _
  have h2 : PendLe R { s.asg.foldl (Exec.assignExec P) s with asg := [] }
      ((s.asg.foldl (Exec.assignExec P) s).ret.foldl (assignRetract P) { s.asg.foldl (Exec.assignExec P) s with asg := [] }) :=
    .foldl (fun s n => by unfold assignRetract; exact .notifyAll _ rfl) _ _
  exact .trans h1 (.trans (.of_q rfl) (.trans h2 (.of_q rfl)))

end Verif.Exec
