import Verif.Props.Exec
import Verif.Props.Queue
import Verif.Exec.Lost
/-!
C79: no object is ever in two intrusive queues.
-/
namespace Verif.Exec
open Verif.Node

variable {Val Env : Type} {P : Plan Val Env}

theorem setState_fin (n : NodeId) (b : NState) (s : St Val Env) :
    (setState P n b s).fin = s.fin ∨ ((setState P n b s).fin = s.fin ++ [n] ∧ b = .finished ∧ (P.node n).anc = []) := by
  unfold setState
  rw [notifyAll_fin]
  split
  · rename_i h
    unfold addFinishedRoot
    split
    · exact .inr ⟨rfl, h⟩
    · split <;> exact .inl rfl
  · exact .inl rfl

theorem transition_fin (n : NodeId) (s : St Val Env) :
    (transition P n s).fin = s.fin ∨ ((transition P n s).fin = s.fin ++ [n] ∧ s.nx n = some .finished ∧ (P.node n).anc = []) := by
  unfold transition
  split
  · exact .inl rfl
  · rename_i b hb
    simp only
    split
    · exact .inl rfl
    · rw [notifyAll_fin]
      have key : ∀ s' : St Val Env, (if b = .executing then execBody P n s' else s').fin = s'.fin := by
        intro s'; split
        · simp
        · rfl
      rw [show ∀ (s' : St Val Env) a b c, ({ s' with nx := a, nxO := b, nxF := c } : St Val Env).fin = s'.fin from fun _ _ _ _ => rfl, key]
      show (setState P n b _).fin = _ ∨ (setState P n b _).fin = _ ∧ _
      rcases setState_fin (P := P) n b (notifyAll (P.wake (.pre n) (transTo P n (s.st n) b (transFrom n (s.st n) b s)).obs) (transTo P n (s.st n) b (transFrom n (s.st n) b s)))
        with h | ⟨h1, h2, h3⟩
      · left; rw [h, notifyAll_fin, transTo_fin, transFrom_fin]
      · right; rw [h1, notifyAll_fin, transTo_fin, transFrom_fin]; exact ⟨rfl, by rw [hb, h2], h3⟩

theorem transOne_fin (n : NodeId) (s : St Val Env) :
    (transOne P n s).fin = s.fin ∨ ((transOne P n s).fin = s.fin ++ [n] ∧ s.nx n = some .finished ∧ (P.node n).anc = []) := by
  unfold transOne
  simp only
  split
  · exact transition_fin n (notify n { s with q := set s.q n .none })
  · exact transition_fin n { s with q := set s.q n .none }

theorem finishStep_fin (acc rej : List NodeId) (s : St Val Env) : (finishStep P acc rej s).fin = s.fin := by
  have h1 : ∀ (l : List NodeId) (s : St Val Env), (l.foldl (assignExec P) s).fin = s.fin := by
    intro l; induction l with
    | nil => intro s; rfl
    | cons n l ih => intro s; refine (ih _).trans ?_; unfold assignExec; rw [notifyAll_fin]
  have h2 : ∀ (l : List NodeId) (s : St Val Env), (l.foldl (assignRetract P) s).fin = s.fin := by
    intro l; induction l with
    | nil => intro s; rfl
    | cons n l ih => intro s; refine (ih _).trans ?_; unfold assignRetract; rw [notifyAll_fin]
  unfold finishStep outbound performAssignments
  simp only
  rw [h2]
  exact h1 _ _

/-- Finished roots are queued once, and stay finished. -/
theorem Reach.fin {ph : Phase} {s : St Val Env} (h : Reach P ph s) : s.fin.Nodup ∧ ∀ n ∈ s.fin, (P.node n).anc = [] ∧ s.st n = .finished := by
  have main : ∀ {ph : Phase} {s : St Val Env}, Reach P ph s → (s.fin.Nodup ∧ ∀ n ∈ s.fin, (P.node n).anc = [] ∧ s.st n = .finished) := by
    intro ph s h
    induction h with
    | init vars env => exact ⟨List.nodup_nil, fun n h => absurd h (by simp [Exec.init])⟩
    | @step ph ph' s s' hr hs ih =>
      obtain ⟨hI, _, hchk⟩ := hr.inv
      have same : s'.fin = s.fin → s'.st = s.st → (s'.fin.Nodup ∧ ∀ n ∈ s'.fin, (P.node n).anc = [] ∧ s'.st n = .finished) := by
        intro e1 e2; rw [e1, e2]; exact ih
      cases hs with
      | ext _ e ns => exact same (by simp) (by simp)
      | ackUpd _ m =>
        refine same ?_ ?_ <;> · unfold ackUpdate; split <;> simp
      | deletePlans _ => exact ⟨List.nodup_nil, fun n h => absurd h (by simp)⟩
      | begin _ => exact same rfl rfl
      | check _ m rest hc =>
        obtain ⟨e1, -, -, -, -, -, -, -, -, -, -, -, -, -, e15, -⟩ := (checkOne_frame (P := P) m rest s).fields
        exact same e15 e1
      | resolve _ hc hne =>
        obtain ⟨e1, -, -, -, -, -, -, -, -, -, -, -, -, -, e15, -⟩ := (resolve_frame (P := P) s).fields
        exact same e15 e1
      | trans _ m rest hc =>
        obtain ⟨dd, o, oo, hd, hos, hnx, hdiag, _, hst, _⟩ := transOne_fields hI hc
        have hm : m ∉ s.fin := by
          intro hm
          obtain ⟨h1, h2⟩ := ih.2 m hm
          exact (hr.finishedRoot h1 h2).2.1 (by rw [hc]; simp)
        have old : ∀ n ∈ s.fin, (P.node n).anc = [] ∧ (transOne P m { s with change := rest }).st n = .finished := by
          intro n hn
          have : n ≠ m := fun e => hm (e ▸ hn)
          rw [hst, set_ne _ _ _ _ this]; exact ih.2 n hn
        rcases transOne_fin (P := P) m { s with change := rest } with e | ⟨e, h1, h2⟩
        · rw [e]; exact ⟨ih.1, old⟩
        · rw [e]
          refine ⟨List.nodup_append.mpr ⟨ih.1, by simp, ?_⟩, ?_⟩
          · intro a ha b hb hab; simp at hb; subst hb; subst hab; exact hm ha
          · intro n hn
            rcases List.mem_append.mp hn with hn | hn
            · exact old n hn
            · simp at hn; subst hn
              refine ⟨h2, ?_⟩
              have h1' : s.nx n = some .finished := h1
              rw [hst]; simp_all
      | again _ hc hn hne => exact same rfl rfl
      | finishQuiet _ acc rej hc hne hp =>
        obtain ⟨e1, -, -, -, -, -, -, -, -, -, -, -, -, -, e15, -⟩ := (resolve_frame (P := P) s).fields
        exact same ((finishStep_fin _ _ _).trans e15) ((finishStep_fields (P := P) _ acc rej).1.trans e1)
      | finish _ acc rej hc hne hp => exact same (finishStep_fin _ _ _) (finishStep_fields (P := P) _ acc rej).1
  exact main h

end Verif.Exec

namespace Verif.Props.Links
open Verif.Exec Verif.Node
variable {Val Env : Type} {P : Plan Val Env}

/-- **C79, nodes.**  At every moment of every execution a node is at most once in at most one of the four queues that link nodes through their one `next` pointer: the candidates, the
transitions to do, the nodes waiting for resources, the finished roots. -/
theorem C79_nodes {ph : Phase} {s : St Val Env} (h : Reach P ph s) : (s.cand ++ s.change ++ s.pending ++ s.fin).Nodup := by
  have hQ := h.inv.1.Q
  obtain ⟨f1, f2⟩ := h.fin
  have hl : ∀ n ∈ s.fin, Lost true n s := fun n hn => h.finishedRoot (f2 n hn).1 (f2 n hn).2
  rw [List.nodup_append, List.nodup_append, List.nodup_append]
  refine ⟨⟨⟨hQ.candNodup, hQ.changeNodup, ?_⟩, hQ.pendingNodup, ?_⟩, f1, ?_⟩
  · rintro a ha b hb rfl
    exact (hQ.changeQ a hb).2.1 ((hQ.candIff a).mp ha)
  · rintro a ha b hb rfl
    rcases List.mem_append.mp ha with ha | ha
    · have h1 := (hQ.candIff a).mp ha
      have h2 := hQ.pendQ a hb
      rw [h1] at h2; simp [IsPend] at h2
    · exact hQ.disj a ha hb
  · rintro a ha b hb rfl
    have h1 := hl a hb
    rcases List.mem_append.mp ha with ha | ha
    · rcases List.mem_append.mp ha with ha | ha
      · exact h1.2.2.ne_check ((hQ.candIff a).mp ha)
      · exact h1.2.1 ha
    · exact h1.1 ha

/-- **C79, bodies.**  The same for assignments (to execute, to retract), commands (to execute, to abort) and updates. -/
theorem C79_bodies {ph : Phase} {s : St Val Env} (h : Reach P ph s) : (s.asg ++ s.ret).Nodup ∧ (s.cmds ++ s.aborts).Nodup ∧ s.upds.Nodup := by
  obtain ⟨_, _, _, _, hO, _⟩ := h.output
  rw [List.nodup_append, List.nodup_append]
  refine ⟨⟨hO.asgNd, hO.retNd, ?_⟩, ⟨hO.cmdsNd, hO.abortsNd, ?_⟩, hO.updsNd⟩
  · rintro a ha b hb rfl
    have h1 := (hO.asgSt a ha).1
    rw [(hO.retSt a hb).1] at h1; cases h1
  · rintro a ha b hb rfl
    have h1 := (hO.cmdsSt a ha).1
    rw [(hO.abortsSt a hb).1] at h1; cases h1

/-- Not empty: a moment at which three queues of nodes and two of bodies are in use, and one with a retraction and an abort. -/
theorem C79_example : (∃ ph s, Reach demo ph s ∧ (s.cand, s.change, s.pending, s.cmds, s.upds) = ([0, 3, 4], [1], [2], [3], [4])) ∧
    ∃ ph s, Reach demo ph s ∧ (s.cand, s.ret, s.aborts) = ([0, 1, 3, 4, 2], [2], [3]) := by
  constructor
  · exact exists_run demo [.cmd (.ext 0 [0]), .cmd .begin, .steps 31] (fun _ => 0) 0
      (fun x => (x.2.cand, x.2.change, x.2.pending, x.2.cmds, x.2.upds)) _ rfl
  · exact exists_run demo [.cmd (.ext 0 [0]), .macroStep, .macroStep, .cmd (.ext 5 [0, 1, 2, 3, 4]), .cmd .begin, .steps 8] (fun _ => 0) 0
      (fun x => (x.2.cand, x.2.ret, x.2.aborts)) _ rfl

end Verif.Props.Links
