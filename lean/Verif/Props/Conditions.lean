import Verif.Exec.Rule
import Verif.Props.Exec
import Verif.Exec.Wait
import Mathlib.Tactic.Tauto
/-
C02 for whole executions: the condition wrappers of the code (`specializedCreateConditionWrappers`, the ancestor conditions) and its order of
checks implement `Rule`.
-/
set_option maxRecDepth 100000
namespace Verif.Props.Conditions
open Verif.Node Verif.Exec Verif.Props.Node

variable {Val Env : Type} {P : Plan Val Env}

theorem true'_eval {c : UCond Val Env} {o} : True' (evalC c o) ↔ IsTrue c o := by
  cases c <;> simp [True', evalC, IsTrue]
theorem false'_eval {c : UCond Val Env} {o} : False' (evalC c o) ↔ IsFalse c o := by
  cases c <;> simp [False', evalC, IsFalse]
theorem holds_eval {c : UCond Val Env} {o} : Holds (evalC c o) ↔ Met c o := by
  cases c <;> simp [Holds, evalC, Met]
theorem unknown_eval {c : UCond Val Env} {o} : evalC c o = some none ↔ IsUnknown c o := by
  cases c <;> simp [evalC, IsUnknown]

theorem true'_orC {a b : Cond} : True' (orC a b) ↔ True' a ∨ True' b := by
  rcases a with _ | _ | _ | _ <;> rcases b with _ | _ | _ | _ <;> simp [True', orC, or3]
theorem false'_andC {a b : Cond} : False' (andC a b) ↔ False' a ∨ False' b := by
  rcases a with _ | _ | _ | _ <;> rcases b with _ | _ | _ | _ <;> simp [False', andC, and3]

theorem fold_or (f : NodeId → Cond) (l : List NodeId) : True' (l.foldr (fun a acc => orC (f a) acc) none) ↔ ∃ a ∈ l, True' (f a) := by
  induction l with
  | nil => simp [True']
  | cons a l ih => simp only [List.foldr_cons, true'_orC, ih, List.mem_cons, exists_eq_or_imp]
theorem fold_and (f : NodeId → Cond) (l : List NodeId) : False' (l.foldr (fun a acc => andC (f a) acc) none) ↔ ∃ a ∈ l, False' (f a) := by
  induction l with
  | nil => simp [False']
  | cons a l ih => simp only [List.foldr_cons, false'_andC, ih, List.mem_cons, exists_eq_or_imp]

theorem c_ancExit (o : Obs Val Env) (n) : True' (conds P o n).ancExit ↔ AncExits P o n := by
  simp only [conds, ancExit, fold_or (fun a => evalC (P.node a).exit o), true'_eval, AncExits]
theorem c_ancInv (o : Obs Val Env) (n) : False' (conds P o n).ancInv ↔ AncInvFails P o n := by
  simp only [conds, ancInv, fold_and (fun a => evalC (P.node a).inv o), false'_eval, AncInvFails]
theorem c_ancEnd (o : Obs Val Env) (n) : True' (conds P o n).ancEnd ↔ AncEnds P o n := by
  simp only [conds, ancEnd, fold_or (fun a => evalC (P.node a).endc o), true'_eval, AncEnds]
theorem c_exit (o : Obs Val Env) (n) : True' (conds P o n).exit ↔ IsTrue (P.node n).exit o := true'_eval
theorem c_skip (o : Obs Val Env) (n) : True' (conds P o n).skip ↔ IsTrue (P.node n).skip o := true'_eval
theorem c_inv (o : Obs Val Env) (n) : False' (conds P o n).inv ↔ IsFalse (P.node n).inv o := false'_eval
theorem c_start (o : Obs Val Env) (n) : Holds (conds P o n).start ↔ Met (P.node n).start o := holds_eval
theorem c_pre (o : Obs Val Env) (n) : Holds (conds P o n).pre ↔ Met (P.node n).pre o := holds_eval
theorem c_post (o : Obs Val Env) (n) : Holds (conds P o n).post ↔ Met (P.node n).post o := holds_eval
theorem c_rep (o : Obs Val Env) (n) : True' (conds P o n).rep ↔ IsTrue (P.node n).rep o := true'_eval
theorem c_rep' (o : Obs Val Env) (n) : (conds P o n).rep = some none ↔ IsUnknown (P.node n).rep o := unknown_eval

theorem c_end (o : Obs Val Env) (n) : Holds (conds P o n).endc ↔ Ends P o n := by
  simp only [conds, Ends]
  cases (P.node n).type with
  | list =>
    cases (P.node n).endc with
    | none => simp [Holds, IsTrue, allFinished]
    | some f => simp [Holds, IsTrue]
  | update =>
    cases (P.node n).endc with
    | none => cases o.ack n <;> simp [Holds, Met]
    | some f =>
      have : ∀ (x : Bool) (y : Option Bool), Holds (some (and3 (some x) y)) ↔ x = true ∧ y = some true := by
        intro x y; rcases x <;> rcases y with _ | _ | _ <;> simp [Holds, and3]
      simp [this, Met]
  | command =>
    cases (P.node n).endc with
    | none => simp [Holds, Met]
    | some f =>
      have : ∀ x y : Option Bool, Holds (some (or3 x y)) ↔ y = some true ∨ x = some true := by
        intro x y; rcases x with _ | _ | _ <;> rcases y with _ | _ | _ <;> simp [Holds, or3]
      simp [this, Met]
  | empty => simp [holds_eval]
  | assignment => simp [holds_eval]

theorem c_action (o : Obs Val Env) (n) (ht : (P.node n).type ≠ .empty) : True' (conds P o n).actionComplete ↔ ActionOver P o n := by
  simp only [conds, ActionOver]
  cases h : (P.node n).type <;> simp_all [True', allWaitingOrFinished]

theorem c_abort (o : Obs Val Env) (n) (ht : (P.node n).type ≠ .empty) :
    (if (P.node n).type = .assignment ∨ (P.node n).type = .command then True' (conds P o n).abortComplete
      else True' (conds P o n).actionComplete) ↔ CleanUpOver P o n := by
  rw [c_action o n ht]
  simp only [conds, CleanUpOver]
  cases h : (P.node n).type <;> simp_all [True']

theorem parentState_some {o : Obs Val Env} {n x} : parentState P o n = some x ↔ ParentIn P o n x := by
  simp [parentState, ParentIn]

theorem parentState_none {o : Obs Val Env} {n} : parentState P o n = none ↔ (P.node n).anc = [] := by
  simp [parentState]

/-- The reason for stopping, in terms of the code's conditions. -/
theorem stops_iff {o : Obs Val Env} {n own out f} : Stops P o n own out f ↔
    let c := conds P o n
    (True' c.ancExit ∧ own = false ∧ out = .interrupted ∧ f = .parentExited) ∨
    (¬ True' c.ancExit ∧ True' c.exit ∧ own = true ∧ out = .interrupted ∧ f = .exited) ∨
    (¬ True' c.ancExit ∧ ¬ True' c.exit ∧ False' c.ancInv ∧ own = false ∧ out = .failure ∧ f = .parentFailed) ∨
    (¬ True' c.ancExit ∧ ¬ True' c.exit ∧ ¬ False' c.ancInv ∧ False' c.inv ∧ own = true ∧ out = .failure ∧ f = .invFailed) := by
  simp only [c_ancExit, c_exit, c_ancInv, c_inv]
  constructor
  · rintro (h | ⟨h, h'⟩ | ⟨h, h', h''⟩ | ⟨h1, h2, h3, h4⟩)
    · exact .inl ⟨h, rfl, rfl, rfl⟩
    · exact .inr (.inl ⟨h, h', rfl, rfl, rfl⟩)
    · exact .inr (.inr (.inl ⟨h, h', h'', rfl, rfl, rfl⟩))
    · exact .inr (.inr (.inr ⟨h1, h2, h3, h4, rfl, rfl, rfl⟩))
  · rintro (⟨h, rfl, rfl, rfl⟩ | ⟨h, h', rfl, rfl, rfl⟩ | ⟨h, h', h'', rfl, rfl, rfl⟩ | ⟨h1, h2, h3, h4, rfl, rfl, rfl⟩)
    · exact .parentExited h
    · exact .exited h h'
    · exact .parentFailed h h' h''
    · exact .failed h1 h2 h3 h4

theorem stops_or (P : Plan Val Env) (o : Obs Val Env) (n) : GoesOn P o n ∨ ∃ own out f, Stops P o n own out f := by
  by_cases h1 : AncExits P o n
  · exact .inr ⟨_, _, _, .parentExited h1⟩
  by_cases h2 : IsTrue (P.node n).exit o
  · exact .inr ⟨_, _, _, .exited h1 h2⟩
  by_cases h3 : AncInvFails P o n
  · exact .inr ⟨_, _, _, .parentFailed h1 h2 h3⟩
  by_cases h4 : IsFalse (P.node n).inv o
  · exact .inr ⟨_, _, _, .failed h1 h2 h3 h4⟩
  · exact .inl ⟨h1, h2, h3, h4⟩

/-- What the code does with a reason for stopping. -/
theorem dest_of_stops {o : Obs Val Env} {n own out f s} (h : Stops P o n own out f) (hs : s = .executing ∨ s = .finishing)
    (he : StateExists (P.node n).type s) (ha : (P.node n).type = .assignment → ActionOver P o n) (parent fl) :
    getDest (P.node n).type s parent fl (conds P o n) = some (stop (P.node n).type own out f) := by
  have := C02_stop_precedence (P.node n).type s parent fl (conds P o n) hs he
    (fun ht => (c_action o n (by simp [ht])).2 (ha ht))
  rcases stops_iff.1 h with ⟨h1, rfl, rfl, rfl⟩ | ⟨h1, h2, rfl, rfl, rfl⟩ | ⟨h1, h2, h3, rfl, rfl, rfl⟩ | ⟨h1, h2, h3, h4, rfl, rfl, rfl⟩
  · exact this.1 h1
  · exact this.2.1 h1 h2
  · exact this.2.2.1 h1 h2 h3
  · exact this.2.2.2 h1 h2 h3 h4

/-- C02. A node moves on exactly as `Rule` says: the code's choice, with its condition wrappers, ancestor conditions and order of checks, is
the rule stated in terms of the conditions of the plan. -/
theorem C02_decision_is_rule (o : Obs Val Env) (n : NodeId) (he : StateExists (P.node n).type (o.st n)) (d : Dest) :
    decideNext P o n = some d ↔ Rule P o n (o.st n) d := by
  unfold decideNext
  cases hst : o.st n with
  | inactive =>
    have h := C02_inactive_finished (P.node n).type (parentState P o n) (o.fail n) (conds P o n)
    simp only [c_ancExit, c_ancInv, c_ancEnd] at h
    obtain ⟨h1, h2, h3, h4, h5, _, _⟩ := h
    constructor
    · intro hd
      rcases hp : parentState P o n with _ | p
      · rw [h1 hp] at hd; cases hd; exact .wakeRoot (parentState_none.1 hp)
      · by_cases hpe : p = .executing
        · subst hpe
          by_cases ht : AncExits P o n ∨ AncInvFails P o n ∨ AncEnds P o n
          · rw [h2 hp ht] at hd; cases hd; exact .skipChild (parentState_some.1 hp) ht
          · rw [h3 hp ht] at hd; cases hd
            exact .wakeChild (parentState_some.1 hp) (fun x => ht (.inl x)) (fun x => ht (.inr (.inl x))) (fun x => ht (.inr (.inr x)))
        · by_cases hpf : p = .finished
          · subst hpf; rw [h4 hp] at hd; cases hd; exact .parentOver (parentState_some.1 hp)
          · rw [h5 (by simp [hp]) (by simp [hp, hpe]) (by simp [hp, hpf])] at hd; cases hd
    · intro hr
      cases hr with
      | wakeRoot h => exact h1 (parentState_none.2 h)
      | wakeChild hp a b c => exact h3 (parentState_some.2 hp) (by tauto)
      | skipChild hp a => exact h2 (parentState_some.2 hp) a
      | parentOver hp => exact h4 (parentState_some.2 hp)
  | waiting =>
    have h := C02_waiting (P.node n).type (parentState P o n) (o.fail n) (conds P o n)
    simp only [c_ancExit, c_ancInv, c_ancEnd, c_exit, c_skip, c_start, c_pre] at h
    obtain ⟨h1, h2, h3, h4⟩ := h
    constructor
    · intro hd
      by_cases hs : Skips P o n
      · rw [h1 hs] at hd; cases hd; exact .skip hs
      · by_cases hst : Met (P.node n).start o
        · by_cases hp : Met (P.node n).pre o
          · rw [h3 hs hst hp] at hd; cases hd; exact .start hs hst hp
          · rw [h4 hs hst hp] at hd; cases hd; exact .preFails hs hst hp
        · rw [h2 hs hst] at hd; cases hd
    · intro hr
      cases hr with
      | skip h => exact h1 h
      | start a b c => exact h3 a b c
      | preFails a b c => exact h4 a b c
  | executing =>
    rw [hst] at he
    have hn := C02_executing_normal_end (P.node n).type (parentState P o n) (o.fail n) (conds P o n)
    simp only [c_ancExit, c_ancInv, c_exit, c_inv, c_end, c_post] at hn
    constructor
    · intro hd
      by_cases hact : (P.node n).type = .assignment → ActionOver P o n
      · rcases stops_or P o n with hg | ⟨own, out, f, hs⟩
        · obtain ⟨g1, g2⟩ := hn hg.1 hg.2.1 hg.2.2.1 hg.2.2.2
          have g2 := g2 d hd
          have hends : Ends P o n := by
            refine Classical.byContradiction fun hx => ?_
            rw [g1.2 (.inl hx)] at hd; cases hd
          split at g2
          · rename_i ht; subst g2; exact .finishing ht hg hends
          · rename_i ht
            by_cases hp : Met (P.node n).post o
            · rw [g2.1 hp]; exact .succeed (fun x => ht (.inl x)) (fun x => ht (.inr x)) hact hg hends hp
            · rw [g2.2 hp]; exact .postFails (fun x => ht (.inl x)) (fun x => ht (.inr x)) hact hg hends hp
        · rw [dest_of_stops hs (.inl rfl) he hact] at hd
          cases hd
          by_cases ht : (P.node n).type = .empty
          · simp only [stop, ht, if_true]; exact .stopEmpty ht hs
          · simp only [stop, ht, if_false]; exact .stop ht hact hs
      · have ⟨ht, hno⟩ := Classical.not_imp.1 hact
        have hno' : isT (conds P o n).actionComplete ≠ true := by
          rw [Ne, isT_iff, c_action o n (by simp [ht])]; exact hno
        simp [getDest, fromExecuting, ht, hno'] at hd
    · intro hr
      cases hr with
      | stopEmpty ht hs => rw [dest_of_stops hs (.inl rfl) he (by simp [ht])]; simp [stop, ht]
      | stop ht ha hs => rw [dest_of_stops hs (.inl rfl) he ha]; simp [stop, ht]
      | finishing ht hg hends =>
        obtain ⟨g1, g2⟩ := hn hg.1 hg.2.1 hg.2.2.1 hg.2.2.2
        cases hd : getDest (P.node n).type .executing (parentState P o n) (o.fail n) (conds P o n) with
        | none => rcases g1.1 hd with h | h
                  · exact absurd hends h
                  · rcases ht with ht | ht <;> simp [ht] at h
        | some d => have := g2 d hd; rw [if_pos ht] at this; rw [this]
      | succeed t1 t2 ha hg hends hp =>
        obtain ⟨g1, g2⟩ := hn hg.1 hg.2.1 hg.2.2.1 hg.2.2.2
        cases hd : getDest (P.node n).type .executing (parentState P o n) (o.fail n) (conds P o n) with
        | none => rcases g1.1 hd with h | h
                  · exact absurd hends h
                  · exact absurd ((c_action o n (by simp [h.1])).2 (ha h.1)) h.2
        | some d => have := g2 d hd; rw [if_neg (by simp [t1, t2])] at this; rw [this.1 hp]
      | postFails t1 t2 ha hg hends hp =>
        obtain ⟨g1, g2⟩ := hn hg.1 hg.2.1 hg.2.2.1 hg.2.2.2
        cases hd : getDest (P.node n).type .executing (parentState P o n) (o.fail n) (conds P o n) with
        | none => rcases g1.1 hd with h | h
                  · exact absurd hends h
                  · exact absurd ((c_action o n (by simp [h.1])).2 (ha h.1)) h.2
        | some d => have := g2 d hd; rw [if_neg (by simp [t1, t2])] at this; rw [this.2 hp]
  | finishing =>
    rw [hst] at he
    have ht : (P.node n).type = .command ∨ (P.node n).type = .list := by
      cases h : (P.node n).type <;> simp_all [StateExists]
    have hne : (P.node n).type ≠ .empty := by rcases ht with h | h <;> simp [h]
    have hna : (P.node n).type = .assignment → ActionOver P o n := by rcases ht with h | h <;> simp [h]
    have hn := C02_finishing_normal_end (P.node n).type ht (parentState P o n) (o.fail n) (conds P o n)
    simp only [c_ancExit, c_ancInv, c_exit, c_inv, c_post, c_action o n hne] at hn
    have hstop : ∀ own out f, stop (P.node n).type own out f = ⟨.failing, out, f⟩ := by simp [stop, hne]
    constructor
    · intro hd
      rcases stops_or P o n with hg | ⟨own, out, f, hs⟩
      · obtain ⟨g1, g2⟩ := hn hg.1 hg.2.1 hg.2.2.1 hg.2.2.2
        have hact : ActionOver P o n := by
          refine Classical.byContradiction fun hx => ?_
          rw [g1.2 hx] at hd; cases hd
        by_cases hp : Met (P.node n).post o
        · rw [(g2 d hd).1 hp]; exact .succeedFinishing hg hact hp
        · rw [(g2 d hd).2 hp]; exact .postFailsFinishing hg hact hp
      · rw [dest_of_stops hs (.inr rfl) he hna, hstop] at hd
        cases hd; exact .stopFinishing hs
    · intro hr
      cases hr with
      | stopFinishing hs => rw [dest_of_stops hs (.inr rfl) he hna, hstop]
      | succeedFinishing hg ha hp =>
        obtain ⟨g1, g2⟩ := hn hg.1 hg.2.1 hg.2.2.1 hg.2.2.2
        cases hd : getDest (P.node n).type .finishing (parentState P o n) (o.fail n) (conds P o n) with
        | none => exact absurd ha (g1.1 hd)
        | some d => rw [(g2 d hd).1 hp]
      | postFailsFinishing hg ha hp =>
        obtain ⟨g1, g2⟩ := hn hg.1 hg.2.1 hg.2.2.1 hg.2.2.2
        cases hd : getDest (P.node n).type .finishing (parentState P o n) (o.fail n) (conds P o n) with
        | none => exact absurd ha (g1.1 hd)
        | some d => rw [(g2 d hd).2 hp]
  | failing =>
    rw [hst] at he
    have hne : (P.node n).type ≠ .empty := by intro h; simp [StateExists, h] at he
    have h := C02_failing (P.node n).type hne (parentState P o n) (o.fail n) (conds P o n)
    simp only [c_abort o n hne] at h
    obtain ⟨h1, h2, h3⟩ := h
    constructor
    · intro hd
      by_cases hc : CleanUpOver P o n
      · by_cases hf : o.fail n = .parentFailed ∨ o.fail n = .parentExited
        · rw [h2 hc hf] at hd; cases hd; exact .cleanedUpParent hc hf
        · rw [h3 hc hf] at hd; cases hd; exact .cleanedUp hc (fun x => hf (.inl x)) (fun x => hf (.inr x))
      · rw [h1 hc] at hd; cases hd
    · intro hr
      cases hr with
      | cleanedUp hc a b => exact h3 hc (by tauto)
      | cleanedUpParent hc a => exact h2 hc a
  | iterationEnded =>
    have h := C02_iteration_ended (P.node n).type (parentState P o n) (o.fail n) (conds P o n)
    simp only [c_ancExit, c_ancInv, c_ancEnd, c_rep, c_rep'] at h
    obtain ⟨h1, h2, h3, h4⟩ := h
    have hrep : ((conds P o n).rep = none ∨ False' (conds P o n).rep) ↔ ¬ IsTrue (P.node n).rep o ∧ ¬ IsUnknown (P.node n).rep o := by
      rw [← c_rep, ← c_rep']
      generalize (conds P o n).rep = c
      rcases c with _ | _ | _ | _ <;> simp [True', False']
    rw [hrep] at h4
    constructor
    · intro hd
      by_cases a1 : AncExits P o n
      · rw [h1 a1] at hd; cases hd; exact .endedParentExits a1
      by_cases a2 : AncInvFails P o n
      · rw [h2 a1 a2] at hd; cases hd; exact .endedParentFails a1 a2
      by_cases a3 : AncEnds P o n
      · rw [h3 a1 a2 a3] at hd; cases hd; exact .endedParentEnds a1 a2 a3
      obtain ⟨g1, g2, g3⟩ := h4 a1 a2 a3
      by_cases b1 : IsUnknown (P.node n).rep o
      · rw [g1 b1] at hd; cases hd
      by_cases b2 : IsTrue (P.node n).rep o
      · rw [g2 b2] at hd; cases hd; exact .again a1 a2 a3 b2
      · rw [g3 ⟨b2, b1⟩] at hd; cases hd; exact .done a1 a2 a3 b2 b1
    · intro hr
      cases hr with
      | endedParentExits a => exact h1 a
      | endedParentFails a b => exact h2 a b
      | endedParentEnds a b c => exact h3 a b c
      | again a b c e => exact (h4 a b c).2.1 e
      | done a b c e f => exact (h4 a b c).2.2 ⟨e, f⟩
  | finished =>
    have h := C02_inactive_finished (P.node n).type (parentState P o n) (o.fail n) (conds P o n)
    obtain ⟨_, _, _, _, _, h6, h7⟩ := h
    constructor
    · intro hd
      by_cases hp : parentState P o n = some .waiting
      · rw [h6 hp] at hd; cases hd; exact .rewind (parentState_some.1 hp)
      · rw [h7 hp] at hd; cases hd
    · intro hr
      cases hr with
      | rewind hp => exact h6 (parentState_some.2 hp)

/-- C02, whole histories: every reported transition follows the rule in the situation in which the node was looked at; that is the situation
`o` at the beginning of the micro step, except for the start of a node that needs mutexes or a variable, which may have been decided earlier,
while the node was already waiting. -/
theorem C02_history {ph : Phase} {s : St Val Env} (h : Reach P ph s) {pre n a b o post} (hl : s.log = pre ++ .trans n a b o :: post) :
    ∃ d o', Rule P o' n a d ∧ d.state = b ∧ o'.st n = a ∧ (o' = o ∨ (b = .executing ∧ resources P n ≠ [])) := by
  obtain ⟨h1, d, o', h2, rfl, h3, h4, h5⟩ := h.inv.1.N.log pre _ post hl
  have := (C02_decision_is_rule o' n (by rw [h3]; exact h4) d).1 h2
  refine ⟨d, o', by rw [← h3]; exact this, rfl, h3, ?_⟩
  by_cases hx : d.state = .executing ∧ acquiresResources P n = true
  · right; refine ⟨hx.1, ?_⟩
    have := hx.2
    simp only [acquiresResources, Bool.or_eq_true, Bool.not_eq_true', List.isEmpty_eq_false_iff, beq_iff_eq] at this
    rcases this with h | h <;> simp [resources, h]
  · exact .inl (h5 hx)

/-! Examples: a list (0) with exit condition "env = 1", in it a list (1), in it a command (2) with an End condition that is unknown and a handle that
says "denied" when env is 2. -/

def nested : Plan Int Nat where
  node := fun
    | 0 => { type := .list, children := [1], rhs := fun _ => 0, exit := some fun o => some (o.env == 1) }
    | 1 => { type := .list, anc := [0], children := [2], rhs := fun _ => 0, inv := some fun o => some (o.env != 1) }
    | 2 => { type := .command, anc := [1, 0], rhs := fun _ => 7, endc := some fun _ => none, interruptible := fun o => some (o.env == 2) }
    | _ => { type := .empty, rhs := fun _ => 0 }
  wake := fun _ _ => [0, 1, 2]

def allExecuting (e : Nat) : Obs Int Nat :=
  ⟨fun _ => .executing, fun _ => .none, fun _ => .none, fun _ => 0, fun _ => false, fun _ => false, e⟩

/-- The exit condition of the grandparent takes precedence over the invariant of the parent. -/
example : Rule nested (allExecuting 1) 2 .executing ⟨.failing, .interrupted, .parentExited⟩ :=
  .stop (by simp [nested]) (by simp [nested]) (.parentExited ⟨0, by simp [nested], _, rfl, rfl⟩)
/-- The command ends as its handle says so, although its End condition is unknown. -/
example : Rule nested (allExecuting 2) 2 .executing ⟨.finishing, .none, .none⟩ :=
  .finishing (.inl rfl) (by simp [GoesOn, AncExits, AncInvFails, IsTrue, IsFalse, nested, allExecuting]) (by
    show Met _ _ ∨ _
    exact .inr rfl)
example : decideNext nested (allExecuting 2) 2 = some ⟨.finishing, .none, .none⟩ ∧ decideNext nested (allExecuting 3) 2 = none := ⟨rfl, rfl⟩

/-- The hypotheses of `C02_history` are met: the command is cut off in a run. -/
example : ∃ ph s, Reach nested ph s ∧ ∃ o, .trans 2 .executing .failing o ∈ s.log := by
  let f : Event Int Nat → Bool := fun | .trans 2 .executing .failing _ => true | _ => false
  obtain ⟨ph, s, h, hf⟩ := exists_run nested [.cmd (.ext 0 [0]), .macroStep, .cmd (.ext 1 [0, 1, 2]), .macroStep] (fun _ => 0) 0
    (fun x => x.2.log.any f) true rfl
  simp only [List.any_eq_true] at hf
  obtain ⟨e, h3, h3'⟩ := hf
  refine ⟨ph, s, h, ?_⟩
  simp only [f] at h3'
  split at h3'
  · exact ⟨_, h3⟩
  · cases h3'

/-! ## C36 -/

/-- C36: whenever an Assignment node is reported to leave EXECUTING, for whatever reason, its assignment has been reported since the node last
started. -/
theorem C36_waits_for_assignment {ph : Phase} {s : St Val Env} (h : Reach P ph s) {pre n b o post} (ht : (P.node n).type = .assignment)
    (hl : s.log = pre ++ .trans n .executing b o :: post) :
    ∃ A o0 B v, pre = A ++ .start n o0 :: B ∧ (∀ o2, .start n o2 ∉ B) ∧ .assign n v ∈ B := by
  rcases made_spec n (h.winv.1.log.exec pre n b o post ht hl) with h | ⟨_, h | ⟨h, _⟩⟩
  · exact h
  · cases h
  · exact absurd rfl h

/-- C36: whenever an Assignment node is reported to leave FAILING, the retraction of its assignment has been reported since it began to fail. -/
theorem C36_waits_for_retraction {ph : Phase} {s : St Val Env} (h : Reach P ph s) {pre n b o post} (ht : (P.node n).type = .assignment)
    (hl : s.log = pre ++ .trans n .failing b o :: post) :
    ∃ A a o0 B v, pre = A ++ .trans n a .failing o0 :: B ∧ (∀ a2 o2, .trans n a2 .failing o2 ∉ B) ∧ .retract n v ∈ B := by
  rcases undone_spec n (h.winv.1.log.failing pre n b o post ht hl) with h | ⟨_, h | ⟨h, _⟩⟩
  · exact h
  · cases h
  · exact absurd rfl h

/-- The hypotheses are met: in a run of `Exec.cutAssignment` the Assignment node leaves EXECUTING and FAILING. -/
example : ∃ ph s, Reach Exec.cutAssignment ph s ∧ (∃ o, .trans 1 .executing .failing o ∈ s.log) ∧ (∃ o, .trans 1 .failing .finished o ∈ s.log) := by
  let f : Event Int Nat → Bool := fun | .trans 1 .failing .finished _ => true | _ => false
  let g : Event Int Nat → Bool := fun | .trans 1 .executing .failing _ => true | _ => false
  obtain ⟨ph, s, h, hf⟩ := exists_run Exec.cutAssignment [.cmd (.ext 0 [0]), .macroStep, .cmd (.ext 1 [0, 1]), .macroStep, .macroStep] (fun _ => 0) 0
    (fun x => (x.2.log.any f, x.2.log.any g)) (true, true) rfl
  simp only [Prod.mk.injEq, List.any_eq_true] at hf
  obtain ⟨⟨e, h3, h3'⟩, ⟨e2, h4, h4'⟩⟩ := hf
  refine ⟨ph, s, h, ?_, ?_⟩
  · simp only [g] at h4'
    split at h4'
    · exact ⟨_, h4⟩
    · cases h4'
  · simp only [f] at h3'
    split at h3'
    · exact ⟨_, h3⟩
    · cases h3'

end Verif.Props.Conditions
