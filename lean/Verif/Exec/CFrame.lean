import Verif.Exec.Steps
/-
Checking nodes and resolving resource conflicts only touch queues, decisions and reservations.
-/
namespace Verif.Exec
open Verif.Node

variable {Val Env : Type} {P : Plan Val Env}

/-- Only decisions, queues, reservations and errors may differ. -/
def CFrame (s s' : St Val Env) : Prop :=
  ∃ nx nxO nxF q ho w c ch p e,
    s' = { s with nx := nx, nxO := nxO, nxF := nxF, q := q, holder := ho, waiters := w, change := ch, pending := p, cand := c, err := e }

theorem CFrame.refl (s : St Val Env) : CFrame s s := ⟨_, _, _, _, _, _, _, _, _, _, rfl⟩
theorem CFrame.trans {a b c : St Val Env} (h1 : CFrame a b) (h2 : CFrame b c) : CFrame a c := by
  obtain ⟨_, _, _, _, _, _, _, _, _, _, rfl⟩ := h1
  obtain ⟨_, _, _, _, _, _, _, _, _, _, rfl⟩ := h2
  exact ⟨_, _, _, _, _, _, _, _, _, _, rfl⟩

theorem RFrame.c {s s' : St Val Env} (h : RFrame s s') : CFrame s s' := by
  obtain ⟨_, _, _, _, rfl⟩ := h; exact ⟨_, _, _, _, _, _, _, _, _, _, rfl⟩
theorem QFrame.c {s s' : St Val Env} (h : QFrame s s') : CFrame s s' := by
  obtain ⟨_, _, _, rfl⟩ := h; exact ⟨_, _, _, _, _, _, _, _, _, _, rfl⟩

theorem computeNext_frame (n) (s : St Val Env) : CFrame s (computeNext P n s) := by
  unfold computeNext; split <;> exact ⟨_, _, _, _, _, _, _, _, _, _, rfl⟩

theorem addStateChange_frame (n) (s : St Val Env) : CFrame s (addStateChange n s) := by
  unfold addStateChange; split <;> exact ⟨_, _, _, _, _, _, _, _, _, _, rfl⟩

theorem removePending_frame (n) (s : St Val Env) : CFrame s (removePending P n s) := by
  obtain ⟨w, h, _⟩ := removePending_fields (P := P) n s
  rw [h]; exact ⟨_, _, _, _, _, _, _, _, _, _, rfl⟩

theorem setQ_frame (n x) (s : St Val Env) : CFrame s { s with q := set s.q n x } := ⟨_, _, _, _, _, _, _, _, _, _, rfl⟩

theorem checkOne_frame (n rest) (s : St Val Env) : CFrame s (checkOne P n { s with cand := rest }) := by
  have h0 : CFrame s { s with cand := rest, q := set s.q n .none } := ⟨_, _, _, _, _, _, _, _, _, _, rfl⟩
  have h1 := h0.trans (computeNext_frame (P := P) n _)
  unfold checkOne
  simp only
  split
  · exact h1
  · split
    · exact h1.trans ⟨_, _, _, _, _, _, _, _, _, _, rfl⟩
    · exact h1.trans (addStateChange_frame n _)

theorem eligible_frame (n) (s : St Val Env) : CFrame s (eligible P n s).2.2 := by
  have h1 := computeNext_frame (P := P) n s
  unfold eligible
  split
  · simp only
    split
    · exact (h1.trans (removePending_frame n _)).trans (setQ_frame _ _ _)
    · split
      · exact ((h1.trans (removePending_frame n _)).trans (addStateChange_frame _ _)).trans (setQ_frame _ _ _)
      · exact h1.trans (setQ_frame _ _ _)
  · simp only
    split
    · exact h1.trans (removePending_frame n _)
    · split
      · exact (h1.trans (removePending_frame n _)).trans (addStateChange_frame _ _)
      · exact h1
  · exact CFrame.refl s
  · exact CFrame.refl s
  · exact ⟨_, _, _, _, _, _, _, _, _, _, rfl⟩

theorem collect_frame (prio l) (s : St Val Env) : CFrame s (collect P prio l s).2.2 := by
  induction l generalizing s with
  | nil => exact CFrame.refl s
  | cons n rest ih =>
    simp only [collect]
    split
    · split
      · exact eligible_frame n s
      · exact (eligible_frame n s).trans (ih _)
    · exact CFrame.refl s

theorem acquireGroup_frame (l) (s : St Val Env) : CFrame s (acquireGroup P l s) := by
  induction l generalizing s with
  | nil => exact CFrame.refl s
  | cons n rest ih =>
    simp only [acquireGroup]
    have h1 := (tryAcquire_frame P n s).c
    refine CFrame.trans ?_ (ih _)
    split
    · exact (h1.trans (removePending_frame n _)).trans (addStateChange_frame _ _)
    · exact h1.trans (setQ_frame _ _ _)

theorem resolveFrom_frame (l) (s : St Val Env) : CFrame s (resolveFrom P l s) := by
  generalize hlen : l.length = len
  induction len using Nat.strongRecOn generalizing l s with
  | _ len ih =>
    cases l with
    | nil => rw [resolveFrom]; exact CFrame.refl s
    | cons n rest =>
      rw [resolveFrom]
      have hlt : (collect P (P.node n).priority (n :: rest) s).2.1.length < (n :: rest).length := by
        simp only [collect, if_true]
        split
        · simp
        · have := collect_length P (P.node n).priority rest (eligible P n s).2.2
          simp only [List.length_cons]
          omega
      exact ((collect_frame _ _ s).trans (acquireGroup_frame _ _)).trans (ih _ (by omega) _ _ rfl)

theorem resolve_frame (s : St Val Env) : CFrame s (resolve P s) := resolveFrom_frame _ _

/-- Fields unchanged by such steps. -/
theorem CFrame.fields {s s' : St Val Env} (h : CFrame s s') : s'.st = s.st ∧ s'.out = s.out ∧ s'.fail = s.fail ∧ s'.vars = s.vars ∧
    s'.saved = s.saved ∧ s'.fixed = s.fixed ∧ s'.ack = s.ack ∧ s'.abort = s.abort ∧ s'.env = s.env ∧ s'.asg = s.asg ∧ s'.ret = s.ret ∧
    s'.cmds = s.cmds ∧ s'.aborts = s.aborts ∧ s'.upds = s.upds ∧ s'.fin = s.fin ∧ s'.log = s.log ∧ s'.base = s.base := by
  obtain ⟨_, _, _, _, _, _, _, _, _, _, rfl⟩ := h
  exact ⟨rfl, rfl, rfl, rfl, rfl, rfl, rfl, rfl, rfl, rfl, rfl, rfl, rfl, rfl, rfl, rfl, rfl⟩

end Verif.Exec
