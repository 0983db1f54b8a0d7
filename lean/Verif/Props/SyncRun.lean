import Verif.Exec.Span
import Verif.Props.Sync
/-
C07: every execution of the executive is, as far as the nodes are concerned, a synchronous execution.
-/
set_option autoImplicit false
namespace Verif.Props.SyncRun
open Verif.Node Verif.Exec

variable {Val Env : Type} {P : Plan Val Env}

/-- C07, whole executions: whatever the queues did, the transitions reported and the states, outcomes and failure types reached are those of an
execution in which all nodes move together. -/
theorem C07_refines_synchronous (hN : Notifies P) (hT : TreeOK P) {ph : Phase} {s : St Val Env} (h : ReachN P ph s) (hp : ph ≠ .trans) :
    ∃ B, SyncRun P (transitions s.log) (picture s.obs) B := by
  obtain ⟨B, hB, _⟩ := (h.synced hN hT).1 hp
  exact ⟨B, hB⟩

/-- C07, at any moment (also in the middle of a micro step): a reported transition is part of a synchronous step, taken in the situation it names. -/
theorem C07_transition_synchronous (hN : Notifies P) (hT : TreeOK P) {ph : Phase} {s : St Val Env} (h : ReachN P ph s) {n a b o}
    (he : .trans n a b o ∈ s.log) : ∃ L t B B', SyncRun P L (picture o) B ∧ SyncStep P o B t B' ∧ a = o.st n ∧ b = (t n).1 ∧ a ≠ b := h.event hN hT he

/-- The hypotheses are met by a plan that has run, and in the synchronous execution the list has finished. -/
example : ∃ s, ReachN Sync.racing .idle s ∧ (∃ B, SyncRun Sync.racing (transitions s.log) (picture s.obs) B) ∧ (picture s.obs 0).1 = .finished := by
  obtain ⟨hN, hT, s, h, _, h2, _⟩ := Sync.C06_child_left_running
  exact ⟨s, h, C07_refines_synchronous hN hT h (by simp), h2⟩

end Verif.Props.SyncRun
