import Verif.Exec.SyncSpec
import Verif.Exec.Exit
import Verif.Exec.Pend
/-
The executive only has synchronous executions.
-/
set_option autoImplicit false
set_option linter.unusedSimpArgs false
namespace Verif.Exec
open Verif.Node

variable {Val Env : Type} {P : Plan Val Env}

theorem transitions_append (l l' : List (Event Val Env)) : transitions (l ++ l') = transitions l ++ transitions l' := by
  induction l with
  | nil => rfl
  | cons e l ih => cases e <;> simp [transitions, ih]

theorem transitions_noTrans (l : List (Event Val Env)) (h : ∀ e ∈ l, NoTrans e) : transitions l = [] := by
  induction l with
  | nil => rfl
  | cons e l ih =>
    have h1 := h e (by simp)
    have h2 := ih fun e he => h e (by simp [he])
    cases e <;> first | exact h2 | exact absurd h1 (by simp [NoTrans])

theorem transitions_move (n a b) (base o : Obs Val Env) : transitions (moveEvents n a b base o) = [.trans n a b base] := by
  unfold moveEvents
  by_cases h : b = .executing <;> simp [h, transitions]

theorem mem_transitions {l : List (Event Val Env)} {n a b o} : .trans n a b o ∈ transitions l ↔ .trans n a b o ∈ l := by
  induction l with
  | nil => simp [transitions]
  | cons e l ih => cases e <;> simp [transitions, ih]

/-- Where the nodes will be at the end of the micro step. -/
def goal (P : Plan Val Env) (s : St Val Env) : Picture := fun k => if k ∈ s.change then synchronousNext P s.base k else picture s.obs k

/-- The invariant: between micro steps, the log is that of a synchronous execution; within one, it is that of a synchronous execution and a part of
the next step. -/
def Synced (P : Plan Val Env) (ph : Phase) (s : St Val Env) : Prop :=
  (ph ≠ .trans → ∃ B, SyncRun P (transitions s.log) (picture s.obs) B ∧ ∀ k, IsPend (s.q k) → B k ∨ (ph = .check ∧ Ready P s.base k)) ∧
  (ph = .trans → ∃ L ms B B', SyncRun P L (picture s.base) B ∧ SyncStep P s.base B (goal P s) B' ∧
    transitions s.log = L ++ report s.base (goal P s) ms ∧
    (ms ++ s.change).Nodup ∧ (∀ n, n ∈ ms ++ s.change ↔ (goal P s n).1 ≠ s.base.st n) ∧
    (∀ n ∈ s.change, picture s.obs n = picture s.base n) ∧ ∀ k, k ∉ s.change → IsPend (s.q k) → B' k)

theorem SyncRun.of_trans {s : St Val Env} (hc : s.change = []) (h : Synced P .trans s) :
    ∃ B, SyncRun P (transitions s.log) (picture s.obs) B ∧ ∀ k, IsPend (s.q k) → B k := by
  obtain ⟨L, ms, B, B', h1, h2, h3, h4, h5, _, h6⟩ := h.2 rfl
  have hg : goal P s = picture s.obs := by funext k; unfold goal; rw [hc]; simp
  rw [hc] at h4 h5 h6
  simp only [List.append_nil] at h4 h5
  refine ⟨B', ?_, fun k hk => h6 k (by simp) hk⟩
  rw [h3, ← hg]
  exact .step ms h1 h2 h4 h5

/-- What the nodes do after resources have been given out. -/
theorem goal_resolve (hN : Notifies P) (hT : TreeOK P) {s : St Val Env} (hr : ReachN P .check s) (hc : s.cand = []) {B : NodeId → Prop}
    (hB : ∀ k, IsPend (s.q k) → B k ∨ Ready P s.base k) :
    SyncStep P (resolve P s).base B (goal P (resolve P s)) (fun k => k ∉ (resolve P s).change ∧ IsPend ((resolve P s).q k)) ∧
    ∀ n, n ∈ (resolve P s).change ↔ (goal P (resolve P s) n).1 ≠ (resolve P s).base.st n := by
  obtain ⟨hI, _, hchk⟩ := hr.reach.inv
  have hb := hchk rfl
  obtain ⟨hIr, hor, hbr⟩ := hI.resolve hb
  have hD := (hr.dinv hN hT).resolve hI hb
  have hob : (resolve P s).obs = (resolve P s).base := by rw [hor, hbr]; exact hb
  have hcr : (resolve P s).cand = [] := (resolveFrom_cand _ _).trans hc
  refine ⟨⟨?_, ?_⟩, ?_⟩
  · intro n
    unfold goal
    by_cases hn : n ∈ (resolve P s).change
    · rw [if_pos hn]; exact .inl rfl
    · rw [if_neg hn, hob]
      have none_of : decideNext P (resolve P s).base n = none → picture (resolve P s).base n = synchronousNext P (resolve P s).base n :=
        fun hd => (synchronousNext_none hd).symm
      cases hq : (resolve P s).q n with
      | none =>
        rcases hD.quiet n hq with g | ⟨g, g'⟩
        · left; exact none_of (by rw [← hob]; exact g)
        · right; exact ⟨rfl, .inr ⟨by rw [← hob]; exact g', g⟩⟩
      | delete =>
        obtain ⟨d1, d2⟩ := hD.del n hq
        left
        apply none_of
        unfold decideNext parentState
        rw [d2, show (resolve P s).base.st n = .finished by rw [← hob]; exact d1]; rfl
      | check => have := (hIr.Q.candIff n).2 hq; rw [hcr] at this; cases this
      | transition => exact absurd (hIr.Q.transIn n (.inl hq)) hn
      | transitionCheck => exact absurd (hIr.Q.transIn n (.inr hq)) hn
      | _ => right; exact ⟨rfl, .inl ⟨hn, by rw [hq]; trivial⟩⟩
  · intro k hk
    obtain ⟨hn, hk⟩ := hk
    have := hD.acq k hk
    refine ⟨?_, by rw [← hob]; exact this.2, this.1, ?_⟩
    · unfold goal; rw [if_neg hn, hob]
    · rcases (PendLe.resolve (R := fun _ => False) hI hb) k hk with g | g
      · rcases hB k g with g | g
        · exact .inr g
        · left; rw [hbr]; exact ⟨_, g, rfl⟩
      · exact g.elim
  · intro n
    unfold goal
    by_cases hn : n ∈ (resolve P s).change
    · rw [if_pos hn]
      have hrr : ReachN P .trans (resolve P s) := hr.step (.resolve _ hc (List.ne_nil_of_mem hn)) (by simp)
      obtain ⟨d, hd, _, he, hex⟩ := hrr.queued hN hT hn
      have hne := getDest_ne hd (by rw [he]; exact hex)
      unfold synchronousNext
      rw [hd]
      simp only [hn, true_iff]
      exact hne
    · rw [if_neg hn, hob]; simp [hn, picture]

theorem ReachN.synced (hN : Notifies P) (hT : TreeOK P) {ph : Phase} {s : St Val Env} (h : ReachN P ph s) : Synced P ph s := by
  have quiet : ∀ {ph ph' : Phase} {s s' : St Val Env} (l : List (Event Val Env)), Synced P ph s → ph ≠ .trans → ph' ≠ .trans →
      (ph = .check → ph' = .check ∧ s'.base = s.base) → s'.log = s.log ++ l →
      (∀ e ∈ l, NoTrans e) → picture s'.obs = picture s.obs → PendLe (fun k => ph' = .check ∧ Ready P s'.base k) s s' → Synced P ph' s' := by
    intro ph ph' s s' l h h1 h2 hph h3 h4 h5 h6
    refine ⟨fun _ => ?_, fun e => absurd e h2⟩
    obtain ⟨B, g1, g2⟩ := h.1 h1
    refine ⟨B, ?_, fun k hk => ?_⟩
    · rw [h3, transitions_append, transitions_noTrans l h4, List.append_nil, h5]
      exact g1
    · rcases h6 k hk with g | g
      · rcases g2 k g with g | ⟨g, g'⟩
        · exact .inl g
        · obtain ⟨e1, e2⟩ := hph g; right; rw [e2]; exact ⟨e1, g'⟩
      · exact .inr g
  have pic : ∀ {s s' : St Val Env}, s'.st = s.st → s'.out = s.out → s'.fail = s.fail → picture s'.obs = picture s.obs := by
    intro s s' h1 h2 h3
    unfold picture St.obs
    simp only [h1, h2, h3]
  induction h with
  | init vars env =>
    exact ⟨fun _ => ⟨fun _ => False, .start, fun k hk => hk.elim⟩, by simp⟩
  | ext e ns _ hns ih =>
    exact quiet [] ih (by simp) (by simp) (by simp) (by simp) (by simp) (pic (by simp) (by simp) (by simp)) (.notifyAll _ rfl)
  | ackUpd n _ ih =>
    unfold Exec.ackUpdate
    split
    · exact quiet [] ih (by simp) (by simp) (by simp) (by simp) (by simp) (pic (by simp) (by simp) (by simp)) (.notifyAll _ rfl)
    · exact ih
  | deletePlans _ ih => exact quiet [] ih (by simp) (by simp) (by simp) (by simp) (by simp) (pic rfl rfl rfl) (.of_q rfl)
  | @step ph ph' s s' hr hs hid ih =>
    obtain ⟨hI, hid0, hchk⟩ := hr.reach.inv
    cases hs with
    | ext _ e ns => exact absurd ⟨rfl, rfl⟩ hid
    | ackUpd _ n => exact absurd ⟨rfl, rfl⟩ hid
    | deletePlans _ => exact absurd ⟨rfl, rfl⟩ hid
    | begin _ => exact quiet [] ih (by simp) (by simp) (by simp) (by simp) (by simp) (pic rfl rfl rfl) (.of_q rfl)
    | check _ n rest hc =>
      obtain ⟨e1, e2, e3, _, _, _, e7, e8, _, _, _, _, _, _, _, e16, e17⟩ := (checkOne_frame (P := P) n rest s).fields
      have hbase : (checkOne P n { s with cand := rest }).base = s.base := by
        obtain ⟨q, nx, nxO, nxF, _, _, _, _, _, _, e⟩ := checkOne_frame (P := P) n rest s; rw [e]
      refine quiet [] ih (by simp) (by simp) (fun _ => ⟨rfl, hbase⟩) (by simpa using e16) (by simp) (pic e1 e2 e3) ?_
      intro k hk
      rcases PendLe.checkOne k hk with g | g
      · exact .inl g
      · right; rw [hbase, ← hchk rfl]; exact ⟨rfl, g⟩
    | resolve _ hc hne =>
      obtain ⟨e1, e2, e3, _, _, _, e7, e8, _, _, _, _, _, _, _, e16, e17⟩ := (resolve_frame (P := P) s).fields
      obtain ⟨hIr, hor, hbr⟩ := hI.resolve (hchk rfl)
      have hob : (Exec.resolve P s).obs = (Exec.resolve P s).base := by rw [hor, hbr]; exact hchk rfl
      refine ⟨by simp, fun _ => ?_⟩
      obtain ⟨B, b1, b2⟩ := ih.1 (by simp)
      obtain ⟨g1, g2⟩ := goal_resolve hN hT hr hc (fun k hk => (b2 k hk).imp_right And.right)
      refine ⟨transitions s.log, [], B, _, ?_, g1, by rw [e16]; simp [report], by simpa using hIr.Q.changeNodup, by simpa using g2,
        fun n _ => by rw [hob], fun k h1 h2 => ⟨h1, h2⟩⟩
      rw [← hob, hor]
      exact b1
    | trans _ n rest hc =>
      refine ⟨by simp, fun _ => ?_⟩
      obtain ⟨L, ms, B, B', h1, h2, h3, h4, h5, h7, h8⟩ := ih.2 rfl
      have hnr : n ∉ rest := by have := hI.Q.changeNodup; rw [hc] at this; exact (List.nodup_cons.1 this).1
      have hin : n ∈ s.change := by rw [hc]; simp
      have hp := h7 n hin
      simp only [picture, St.obs, Prod.mk.injEq] at hp
      obtain ⟨k1, k2, k3, k4⟩ := transOne_sync hI (hr.binv hN hT) hc hp.1.symm hp.2.1.symm hp.2.2.symm
      obtain ⟨d, o, oo, hd, hos, hnx, hdiag, hob, e1, e2, _⟩ := transOne_fields hI hc
      have hst : d.state = (synchronousNext P s.base n).1 := by
        rw [← k1]; show d.state = (transOne P n { s with change := rest }).st n; rw [e1]; simp [Exec.set]
      have hlog : transitions (transOne P n { s with change := rest }).log =
          L ++ report s.base (goal P s) (ms ++ [n]) := by
        rw [e2, transitions_append, transitions_move, h3]
        unfold report goal
        simp [hin, hst, hp.1]
      have hgoal : goal P (transOne P n { s with change := rest }) = goal P s := by
        funext k
        unfold goal
        rw [k2, k3, hc]
        by_cases e : k = n
        · subst e; simp only [hnr, if_false, List.mem_cons, true_or, if_true]; exact k1
        · simp only [List.mem_cons, e, false_or]
          have : picture (transOne P n { s with change := rest }).obs k = picture s.obs k := by
            obtain ⟨a1, a2, a3⟩ := k4 k e
            simp only [picture, St.obs]; rw [a1, a2, a3]
          rw [this]
      have hperm : ms ++ [n] ++ rest = ms ++ s.change := by rw [hc]; simp
      refine ⟨L, ms ++ [n], B, B', by rw [k3]; exact h1, by rw [k3, hgoal]; exact h2, by rw [k3, hgoal]; exact hlog, ?_, ?_, ?_, ?_⟩
      · rw [k2, hperm]; exact h4
      · rw [k2, hperm, hgoal, k3]; exact h5
      · rw [k2, k3]
        intro m hm
        have hmn : m ≠ n := fun e => hnr (e ▸ hm)
        obtain ⟨a1, a2, a3⟩ := k4 m hmn
        rw [← h7 m (by rw [hc]; simp [hm])]
        simp only [picture, St.obs]; rw [a1, a2, a3]
      · intro k hk1 hk2
        rw [k2] at hk1
        obtain ⟨p1, p2⟩ := pend_transOne hI hc hk2
        exact h8 k (by rw [hc]; simp [p1, hk1]) p2
    | again _ hc hn hne =>
      refine ⟨fun _ => ?_, by simp⟩
      obtain ⟨B, g1, g2⟩ := SyncRun.of_trans (s := s) hc ih
      exact ⟨B, g1, fun k hk => .inl (g2 k hk)⟩
    | finishQuiet _ acc rej hc hne hp =>
      obtain ⟨e1, e2, e3, _, _, _, e7, e8, _, _, _, _, _, _, _, e16, e17⟩ := (resolve_frame (P := P) s).fields
      obtain ⟨l, hl1, hl2⟩ := finishStep_log (P := P) (Exec.resolve P s) acc rej
      obtain ⟨f1, _, _, f2, f3⟩ := finishStep_fields (P := P) (Exec.resolve P s) acc rej
      obtain ⟨hIr, hor, hbr⟩ := hI.resolve (hchk rfl)
      have hob : (Exec.resolve P s).obs = (Exec.resolve P s).base := by rw [hor, hbr]; exact hchk rfl
      refine ⟨fun _ => ?_, by simp⟩
      obtain ⟨B, b1, b2⟩ := ih.1 (by simp)
      obtain ⟨g1, g2⟩ := goal_resolve hN hT hr hc (fun k hk => (b2 k hk).imp_right And.right)
      have hg : goal P (Exec.resolve P s) = picture (Exec.resolve P s).obs := by funext k; unfold goal; rw [hne]; simp
      have hrun : SyncRun P (transitions s.log ++ report (Exec.resolve P s).base (goal P (Exec.resolve P s)) []) (goal P (Exec.resolve P s))
          (fun k => k ∉ (Exec.resolve P s).change ∧ IsPend ((Exec.resolve P s).q k)) :=
        .step [] (by rw [← hob, hor]; exact b1) g1 (by simp) (by rw [hne] at g2; exact g2)
      refine ⟨fun k => k ∉ (Exec.resolve P s).change ∧ IsPend ((Exec.resolve P s).q k), ?_, ?_⟩
      · rw [hl1, transitions_append, transitions_noTrans l hl2, List.append_nil, e16, pic f1 f2 f3, ← hg]
        simpa [report] using hrun
      · intro k hk
        rcases (PendLe.finishStep (R := fun _ => False) (Exec.resolve P s) acc rej) k hk with g | g
        · left; rw [hne]; exact ⟨by simp, g⟩
        · exact g.elim
    | finish _ acc rej hc hne hp =>
      obtain ⟨l, hl1, hl2⟩ := finishStep_log (P := P) s acc rej
      obtain ⟨f1, _, _, f2, f3⟩ := finishStep_fields (P := P) s acc rej
      refine ⟨fun _ => ?_, by simp⟩
      obtain ⟨B, g1, g2⟩ := SyncRun.of_trans (s := s) hc ih
      refine ⟨B, ?_, fun k hk => ?_⟩
      · rw [hl1, transitions_append, transitions_noTrans l hl2, List.append_nil, pic f1 f2 f3]; exact g1
      · rcases (PendLe.finishStep (R := fun _ => False) s acc rej) k hk with g | g
        · exact .inl (g2 k g)
        · exact g.elim

end Verif.Exec
