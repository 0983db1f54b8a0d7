import Verif.Exec.Resources
/-
The invariant of the queue protocol: queue status agrees with queue membership.
-/
namespace Verif.Exec
open Verif.Node

variable {Val Env : Type} (P : Plan Val Env)

def IsPend : QStatus → Prop
  | .pending | .pendingCheck | .pendingTry | .pendingTryCheck => True
  | _ => False

def IsTry : QStatus → Prop
  | .pendingTry | .pendingTryCheck => True
  | _ => False

structure QInv (s : St Val Env) : Prop where
  candNodup : s.cand.Nodup
  candIff : ∀ n, n ∈ s.cand ↔ s.q n = .check
  changeNodup : s.change.Nodup
  pendingNodup : s.pending.Nodup
  changeQ : ∀ n ∈ s.change, s.q n ≠ .none ∧ s.q n ≠ .check ∧ s.q n ≠ .delete
  disj : ∀ n ∈ s.change, n ∉ s.pending
  pendQ : ∀ n ∈ s.pending, IsPend (s.q n)
  transIn : ∀ n, s.q n = .transition ∨ s.q n = .transitionCheck → n ∈ s.change
  tryIn : ∀ n, IsTry (s.q n) → n ∈ s.pending
  waitIn : ∀ r n, n ∈ s.waiters r → n ∈ s.pending ∧ r ∈ resources P n
  waitNodup : ∀ r, (s.waiters r).Nodup
  noInternal : Err.internal ∉ s.err

variable {P}

theorem QInv.congr {s s' : St Val Env} (h : QInv P s) (hq : s'.q = s.q) (hc : s'.cand = s.cand) (hch : s'.change = s.change)
    (hp : s'.pending = s.pending) (hw : s'.waiters = s.waiters) (he : s'.err = s.err) : QInv P s' := by
  obtain ⟨h1, h2, h3, h4, h5, h6, h7, h8, h9, h10, h11, h12⟩ := h
  constructor <;> simp only [hq, hc, hch, hp, hw, he] <;> assumption

theorem IsPend.notifyQ {q : QStatus} (h : IsPend q) : IsPend (notifyQ q) := by cases q <;> simp_all [IsPend, Exec.notifyQ]

theorem QInv.notify {s : St Val Env} (h : QInv P s) (n : NodeId) : QInv P (notify n s) := by
  have hN : (Exec.notify n s).q n = notifyQ (s.q n) := by simp [Exec.notify]
  have hO : ∀ k, k ≠ n → (Exec.notify n s).q k = s.q k := by intro k hk; simp [Exec.notify, hk]
  have hcand : (Exec.notify n s).cand = if s.q n = .none then s.cand ++ [n] else s.cand := rfl
  have hnc : s.q n = .none → n ∉ s.cand := by
    intro hq hc; rw [h.candIff] at hc; rw [hq] at hc; cases hc
  constructor
  · rw [hcand]; split
    · rename_i hq
      rw [List.nodup_append]
      refine ⟨h.candNodup, by simp, ?_⟩
      intro a ha b hb; simp at hb; subst hb; intro e; subst e; exact hnc hq ha
    · exact h.candNodup
  · intro k
    by_cases hk : k = n
    · subst hk
      rw [hN, hcand]
      have := h.candIff k
      cases hq : s.q k <;> simp_all [notifyQ]
    · rw [hO k hk, hcand, ← h.candIff]
      split <;> simp [hk]
  · exact h.changeNodup
  · exact h.pendingNodup
  · intro k hk
    by_cases e : k = n
    · subst e; rw [hN]
      have := h.changeQ k hk
      revert this; cases s.q k <;> simp [notifyQ]
    · rw [hO k e]; exact h.changeQ k hk
  · exact h.disj
  · intro k hk
    by_cases e : k = n
    · subst e; rw [hN]; exact (h.pendQ k hk).notifyQ
    · rw [hO k e]; exact h.pendQ k hk
  · intro k hk
    by_cases e : k = n
    · subst e; rw [hN] at hk
      refine h.transIn k ?_
      revert hk; cases s.q k <;> simp [notifyQ]
    · rw [hO k e] at hk; exact h.transIn k hk
  · intro k hk
    by_cases e : k = n
    · subst e; rw [hN] at hk
      refine h.tryIn k ?_
      revert hk; cases s.q k <;> simp [notifyQ, IsTry]
    · rw [hO k e] at hk; exact h.tryIn k hk
  · exact h.waitIn
  · exact h.waitNodup
  · show Err.internal ∉ s.err ++ _
    rw [List.mem_append]
    rintro (h' | h')
    · exact h.noInternal h'
    · split at h'
      · simp at h'
      · split at h' <;> simp at h'

theorem QInv.notifyAll {s : St Val Env} (h : QInv P s) (ns : List NodeId) : QInv P (notifyAll ns s) := by
  unfold Exec.notifyAll
  induction ns generalizing s with
  | nil => exact h
  | cons n ns ih => exact ih (h.notify n)

/-- A resource operation by a node that only adds itself as waiter if pending. -/
theorem QInv.reff {s s' : St Val Env} {n : NodeId} (h : QInv P s) (hf : RFrame s s') (he : REff P n s s')
    (hn : n ∈ s.pending ∨ ∀ r, n ∈ s'.waiters r → n ∈ s.waiters r)
    (hq : n ∈ s.pending ∨ ∀ k, s'.q k = s.q k ∨ (s'.q k = availQ (s.q k) ∧ ∃ r, k ∈ s.waiters r))
    (herr : Err.internal ∉ s'.err) : QInv P s' := by
  have qcase : ∀ k, s'.q k = s.q k ∨ (s'.q k = availQ (s.q k) ∧ k ∈ s.pending) := by
    intro k
    rcases hq with hq | hq
    · rcases he.q k with e | ⟨e, r, w⟩
      · exact .inl e
      · rcases w with w | ⟨rfl, _⟩
        · exact .inr ⟨e, (h.waitIn r k w).1⟩
        · exact .inr ⟨e, hq⟩
    · rcases hq k with e | ⟨e, r, w⟩
      · exact .inl e
      · exact .inr ⟨e, (h.waitIn r k w).1⟩
  have hw := he.waiters
  have hnd := he.nodup h.waitNodup
  obtain ⟨q', h', w', e', rfl⟩ := hf
  have av : ∀ k, s.q k = .check → q' k = .check := by
    intro k hk
    rcases qcase k with e | ⟨e, _⟩
    · exact e.trans hk
    · exact e.trans (by rw [hk]; rfl)
  constructor
  · exact h.candNodup
  · intro k
    show k ∈ s.cand ↔ q' k = .check
    rw [h.candIff]
    constructor
    · exact av k
    · intro hk
      rcases qcase k with e | ⟨e, _⟩
      · exact e.symm.trans hk
      · have e : q' k = availQ (s.q k) := e
        rw [hk] at e; revert e; cases s.q k <;> simp [availQ]
  · exact h.changeNodup
  · exact h.pendingNodup
  · intro k hk
    rcases qcase k with e | ⟨e, hp⟩
    · have := h.changeQ k hk
      show q' k ≠ _ ∧ q' k ≠ _ ∧ q' k ≠ _
      have e : q' k = s.q k := e
      rw [e]; exact this
    · exact absurd hp (h.disj k hk)
  · exact h.disj
  · intro k hk
    show IsPend (q' k)
    have := h.pendQ k hk
    rcases qcase k with e | ⟨e, _⟩
    · have e : q' k = s.q k := e
      rw [e]; exact this
    · have e : q' k = availQ (s.q k) := e
      rw [e]; revert this; cases s.q k <;> simp [availQ, IsPend]
  · intro k hk
    refine h.transIn k ?_
    have hk : q' k = _ ∨ q' k = _ := hk
    rcases qcase k with e | ⟨e, _⟩
    · have e : q' k = s.q k := e
      rw [e] at hk; exact hk
    · have e : q' k = availQ (s.q k) := e
      rw [e] at hk; revert hk; cases s.q k <;> simp [availQ]
  · intro k hk
    have hk : IsTry (q' k) := hk
    rcases qcase k with e | ⟨e, hp⟩
    · have e : q' k = s.q k := e
      rw [e] at hk; exact h.tryIn k hk
    · exact hp
  · intro r k hk
    rcases hw r k hk with h1 | ⟨rfl, h1⟩
    · exact h.waitIn r k h1
    · rcases hn with hn | hn
      · exact ⟨hn, h1⟩
      · exact h.waitIn r k (hn r hk)
  · exact hnd
  · exact herr

end Verif.Exec
