import Verif.Epx.Sequence
import Verif.Epx.Example
import Verif.Exec.Exit
import Verif.Exec.Quiet
/-
C116: node predicates. C117: sequences.
-/
set_option autoImplicit false
set_option linter.unusedSimpArgs false
namespace Verif.Props.Epx
open Verif.Node Verif.Exec Verif.Epx Verif.Props.Sync

variable {Val Env : Type} {P : Plan Val Env}

/-! ## C116: node predicates -/

/-- C116: of a node that is FINISHED exactly one of these holds: it Succeeded, it Failed, it was Skipped, its outcome is INTERRUPTED. Of a node that is not
FINISHED none of the predicates Succeeded, Failed and Skipped holds. -/
theorem C116_finished {ph : Phase} {s : St Val Env} (h : Reach P ph s) (n : NodeId) :
    (nodeFinished n s.obs = some true →
      (nodeSucceeded n s.obs, nodeFailed n s.obs, nodeSkipped n s.obs, decide (s.out n = .interrupted)) ∈
        [(some true, some false, some false, false), (some false, some true, some false, false),
         (some false, some false, some true, false), (some false, some false, some false, true)]) ∧
    (nodeFinished n s.obs = some false →
      nodeSucceeded n s.obs = some false ∧ nodeFailed n s.obs = some false ∧ nodeSkipped n s.obs = some false) := by
  have hc : Consistent (s.st n) (s.out n) (s.fail n) := (h.inv.1.N.ok n).2
  simp only [nodeFinished, nodeSucceeded, nodeFailed, nodeSkipped, St.obs]
  revert hc
  generalize s.st n = a
  generalize s.out n = b
  generalize s.fail n = c
  cases a <;> cases b <;> cases c <;> simp [Consistent]

/-- C116: PostConditionFailed means that the node's last iteration, or the node, has ended with outcome FAILURE. -/
theorem C116_postcondition_failed {ph : Phase} {s : St Val Env} (h : Reach P ph s) (n : NodeId) (hq : nodePostconditionFailed n s.obs = some true) :
    (s.st n = .iterationEnded ∨ s.st n = .finished) ∧ s.out n = .failure := by
  have hc : Consistent (s.st n) (s.out n) (s.fail n) := (h.inv.1.N.ok n).2
  simp only [nodePostconditionFailed, St.obs] at hq
  revert hc hq
  generalize s.st n = a
  generalize s.out n = b
  generalize s.fail n = c
  cases a <;> cases b <;> cases c <;> simp [Consistent]

/-- C116: predicates are never unknown. -/
theorem C116_known (q : Pred) (n : NodeId) (kids : List NodeId) (o : Obs Val Env) : ∃ b, q.eval n kids o = some b := by
  cases q <;> exact ⟨_, rfl⟩

/-- C116: a transition of node `n` changes only predicates that are evaluated again because of it. -/
theorem C116_told (q : Pred) (n m : NodeId) (kids : List NodeId) {o1 o2 : Obs Val Env} (h : MovedBy P n o1 o2)
    (hne : q.eval m kids o1 ≠ q.eval m kids o2) : n ∈ q.sources m kids := by
  refine Classical.byContradiction fun hn => hne ?_
  cases q with
  | noChildFailed =>
    simp only [Pred.sources] at hn
    simp only [Pred.eval, Verif.Epx.noChildFailed, Option.some.injEq]
    clear hne
    induction kids with
    | nil => rfl
    | cons k l ih =>
      simp only [List.mem_cons, not_or] at hn
      simp only [List.all_cons]
      rw [h.st k (fun e => hn.1 e.symm), h.out k (fun e => hn.1 e.symm), ih hn.2]
  | _ =>
    simp only [Pred.sources, List.mem_cons, List.not_mem_nil, or_false] at hn
    have hm : m ≠ n := fun e => hn e.symm
    simp only [Pred.eval, nodeInactive, nodeWaiting, nodeExecuting, nodeIterationEnded, nodeFinished, nodeSucceeded, nodeFailed, nodeSkipped,
      nodePostconditionFailed, h.st m hm, h.out m hm, h.fail m hm]

/-- C116: assignments change no predicate. -/
theorem C116_not_told (q : Pred) (n m : NodeId) (kids : List NodeId) {o1 o2 : Obs Val Env} (h : WrittenBy P n o1 o2) :
    q.eval m kids o1 = q.eval m kids o2 := by
  cases q <;> simp only [Pred.eval, nodeInactive, nodeWaiting, nodeExecuting, nodeIterationEnded, nodeFinished, nodeSucceeded, nodeFailed, nodeSkipped,
      nodePostconditionFailed, Verif.Epx.noChildFailed, h.st, h.out, h.fail]

/-- C116: if a node Succeeded, its last iteration ended in a situation in which its PostCondition was true, or it has none. -/
theorem C116_succeeded (hN : Notifies P) (hT : TreeOK P) {ph : Phase} {s : St Val Env} (h : ReachN P ph s) (hp : ph ≠ .trans) {n : NodeId}
    (hq : nodeSucceeded n s.obs = some true) :
    ∃ L0 a o L1, transitions s.log = L0 ++ .trans n a .iterationEnded o :: L1 ∧ (∀ b o', .trans n b .iterationEnded o' ∉ L1) ∧
      ∀ f, (P.node n).post = some f → f o = some true := by
  obtain ⟨B, hB, _⟩ := (h.synced hN hT).1 hp
  have hq' : (picture s.obs n).1 = .finished ∧ (picture s.obs n).2.1 = .success := by
    simpa [nodeSucceeded, picture] using hq
  exact hB.succeeded (.inr hq'.1) hq'.2

end Verif.Props.Epx
