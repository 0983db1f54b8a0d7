import Verif.Exec.Macro
/-
Variables change only as reported.
-/
namespace Verif.Exec
open Verif.Node

variable {Val Env : Type} {P : Plan Val Env}

theorem replay_append (v) (l l' : List (Event Val Env)) (x : Val) : replay P v (l ++ l') x = replay P v l' (replay P v l x) := by
  induction l generalizing x with
  | nil => rfl
  | cons e l ih => cases e <;> exact ih _

theorem initLocals_other (l : List (Nat × (Obs Val Env → Val))) (s : St Val Env) (v : Nat) (h : v ∉ l.map Prod.fst) :
    (initLocals l s).vars v = s.vars v := by
  induction l generalizing s with
  | nil => rfl
  | cons p l ih =>
    obtain ⟨w, f⟩ := p
    simp only [List.map_cons, List.mem_cons, not_or] at h
    simp only [initLocals]
    rw [ih _ h.2]
    simp [set, h.1]

/-- One step changes variables only as the new events say. -/
def Replays (P : Plan Val Env) (s s' : St Val Env) : Prop := ∃ l, s'.log = s.log ++ l ∧ ∀ v, s'.vars v = replay P v l (s.vars v)

theorem Replays.same {s s' : St Val Env} (h1 : s'.log = s.log) (h2 : s'.vars = s.vars) : Replays P s s' :=
  ⟨[], by simp [h1], by simp [h2, replay]⟩

theorem Replays.trans {a b c : St Val Env} (h1 : Replays P a b) (h2 : Replays P b c) : Replays P a c := by
  obtain ⟨l, e1, e2⟩ := h1
  obtain ⟨l', e3, e4⟩ := h2
  exact ⟨l ++ l', by rw [e3, e1, List.append_assoc], fun v => by rw [e4, e2, replay_append]⟩

theorem Replays.assignExec (s : St Val Env) (n) : Replays P s (assignExec P s n) := by
  refine ⟨[.assign n (s.fixed n)], by simp [Exec.assignExec], ?_⟩
  intro v
  simp only [Exec.assignExec, notifyAll_vars, replay, set]
  by_cases h : (P.node n).dest = v
  · simp [h]
  · simp [h, Ne.symm h]

theorem Replays.assignRetract (s : St Val Env) (n) : Replays P s (assignRetract P s n) := by
  refine ⟨[.retract n (s.saved (P.node n).dest)], by simp [Exec.assignRetract], ?_⟩
  intro v
  simp only [Exec.assignRetract, notifyAll_vars, replay, set]
  by_cases h : (P.node n).dest = v
  · simp [h]
  · simp [h, Ne.symm h]

theorem Replays.foldl (f : St Val Env → NodeId → St Val Env) (hf : ∀ s n, Replays P s (f s n)) (l : List NodeId) (s : St Val Env) :
    Replays P s (l.foldl f s) := by
  induction l generalizing s with
  | nil => exact .same rfl rfl
  | cons n l ih => exact (hf s n).trans (ih _)

theorem replay_out (v) (l : List (Event Val Env)) (x : Val)
    (h : ∀ e ∈ l, match e with | .assign .. | .retract .. | .start .. => False | _ => True) : replay P v l x = x := by
  induction l with
  | nil => rfl
  | cons e l ih =>
    have := h e (by simp)
    cases e <;> first | exact this.elim | exact ih (fun e' h' => h e' (by simp [h']))

theorem Replays.finishStep (s : St Val Env) (acc rej) : Replays P s (finishStep P acc rej s) := by
  unfold Exec.finishStep performAssignments
  simp only
  have h1 := Replays.foldl (P := P) _ Replays.assignExec s.asg s
  generalize s.asg.foldl (Exec.assignExec P) s = x at *
  have h2 := Replays.foldl (P := P) _ Replays.assignRetract x.ret { x with asg := [] }
  generalize x.ret.foldl (Exec.assignRetract P) { x with asg := [] } = y at *
  refine h1.trans (Replays.trans (b := y) (by obtain ⟨l, g1, g2⟩ := h2; exact ⟨l, g1, g2⟩) ?_)
  refine ⟨acc.map (fun n => Event.command n (y.fixed n)) ++ rej.map Event.deny ++
      y.aborts.map Event.abort ++ y.upds.map (fun n => Event.update n (y.fixed n)) ++
      [.stepDone (outbound acc rej { y with ret := [] }).obs], by simp [outbound], ?_⟩
  intro v
  rw [replay_out]
  · rfl
  · intro e he
    simp only [List.mem_append, List.mem_map, List.mem_singleton] at he
    rcases he with (((⟨_, _, rfl⟩ | ⟨_, _, rfl⟩) | ⟨_, _, rfl⟩) | ⟨_, _, rfl⟩) | rfl <;> trivial

theorem atStart_vars (n b) (s : St Val Env) : (atStart P n b s).vars = enterVars P n b (transFrom n (s.st n) b s) := by
  unfold atStart activateBody bodyState enterVars
  simp only [St.obs]
  simp only [setOutcome_vars, setState_vars, notifyAll_vars]
  unfold transTo
  rw [releaseAll_vars]
  cases b <;> simp
  cases (P.node n).type <;> simp

theorem enterVars_other (n b) (s : St Val Env) (v) (h : b = .executing → v ∉ (P.node n).locals.map Prod.fst) :
    enterVars P n b s v = s.vars v := by
  unfold enterVars
  split
  · rename_i hb; rw [initLocals_other _ _ _ (h hb)]
  · rfl

theorem Replays.transition (n b) (s : St Val Env) (hb : s.nx n = some b) (hne : b ≠ s.st n) : Replays P s (transition P n s) := by
  refine ⟨_, transition_log P n s b hb hne, ?_⟩
  intro v
  rw [transition_vars P n s b hb hne]
  have hv : (transFrom n (s.st n) b s).vars = s.vars := by unfold transFrom resetNode; split <;> rfl
  by_cases h : b = .executing
  · simp only [if_pos h, replay, atStart_vars]
    split
    · rfl
    · rename_i hl
      rw [enterVars_other _ _ _ _ (fun _ => hl), hv]
  · simp only [if_neg h, replay]
    rw [enterVars_other _ _ _ _ (fun e => absurd e h), hv]

theorem Replays.step {ph ph' : Phase} {s s' : St Val Env} (hr : Reach P ph s) (hs : Step P (ph, s) (ph', s')) : Replays P s s' := by
  obtain ⟨hI, hid, hchk⟩ := hr.inv
  cases hs with
  | ext _ e ns => exact .same (by simp) (by simp)
  | ackUpd _ n =>
    unfold ackUpdate
    split
    · exact .same (by simp) (by simp)
    · exact .same rfl rfl
  | deletePlans _ => exact .same rfl rfl
  | begin _ => exact .same rfl rfl
  | check _ n rest hc =>
    obtain ⟨_, _, _, e4, _, _, _, _, _, _, _, _, _, _, _, e16, e17⟩ := (checkOne_frame (P := P) n rest s).fields
    exact .same e16 e4
  | resolve _ hc hne =>
    obtain ⟨_, _, _, e4, _, _, _, _, _, _, _, _, _, _, _, e16, e17⟩ := (resolve_frame (P := P) s).fields
    exact .same e16 e4
  | trans _ n rest hc =>
    have hin : n ∈ s.change := by rw [hc]; simp
    obtain ⟨d, o, hd, hst, hf, hnx, hnxO, hnxF, hbase⟩ := hI.N.dec n hin
    obtain ⟨hex, hcons⟩ := hI.N.ok n
    have hd' : getDest (P.node n).type (s.st n) (parentState P o n) (s.fail n) (conds P o n) = some d := by
      rw [← hst, ← hf]; exact hd
    have hne := getDest_ne hd' hex
    unfold transOne
    simp only
    split
    · exact (Replays.same (s := s) rfl rfl).trans (Replays.transition n d.state _ hnx hne)
    · exact (Replays.same (s := s) rfl rfl).trans (Replays.transition n d.state _ hnx hne)
  | again _ hc hn hne => exact .same rfl rfl
  | finishQuiet _ acc rej hc hne hp =>
    obtain ⟨_, _, _, e4, _, _, _, _, _, _, _, _, _, _, _, e16, e17⟩ := (resolve_frame (P := P) s).fields
    exact (Replays.same e16 e4).trans (.finishStep _ _ _)
  | finish _ acc rej hc hne hp => exact .finishStep _ _ _

end Verif.Exec
