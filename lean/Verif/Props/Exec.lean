import Verif.Exec.Replay
import Mathlib.Data.List.Induction
import Mathlib.Tactic.Tauto
import Mathlib.Logic.Relation
/-
Properties of executions of the executive (C01, C03-C05, C10-C12, C14-C16, C32, C35).
`Reach P ph s`: the executive, running the plans `P`, can get to state `s` in phase `ph` by any number of steps, external events in
any order, any notification order and any behaviour of the environment. `s.log` lists everything reported so far.
-/
set_option maxRecDepth 100000

namespace Verif.Props.Exec
open Verif.Node Verif.Exec

variable {Val Env : Type} {P : Plan Val Env}

/-! ## C01 -/

/-- C01, whole histories: every reported transition starts in the state the node was in and follows the state diagram of its type. -/
theorem C01_history {ph : Phase} {s : St Val Env} (h : Reach P ph s) {pre n a b o post} (hl : s.log = pre ++ .trans n a b o :: post) :
    lastState n pre .inactive = a ∧ Diagram (P.node n).type a b := by
  obtain ⟨h1, d, o', h2, rfl, h3, h4, _⟩ := h.inv.1.N.log pre _ post hl
  refine ⟨h1, ?_⟩
  have : getDest (P.node n).type a (parentState P o' n) (o'.fail n) (conds P o' n) = some d := by rw [← h3]; exact h2
  exact (Verif.Props.Node.C01_destination_in_diagram _ _ _ _ _ _ h4 this).1

/-- C01: the state of a node is always the one last reported, reached along the diagram from INACTIVE, and one that exists for its
type; the "cannot happen" errors of the queue protocol and of `transition` do not happen. -/
theorem C01_states {ph : Phase} {s : St Val Env} (h : Reach P ph s) (n : NodeId) :
    lastState n s.log .inactive = s.st n ∧ StateExists (P.node n).type (s.st n) ∧ Path (P.node n).type .inactive (s.st n) ∧
    Err.internal ∉ s.err := by
  have hI := h.inv.1
  refine ⟨hI.N.hist n, (hI.N.ok n).1, ?_, hI.Q.noInternal⟩
  rw [← hI.N.hist n]
  have key : ∀ l : List (Event Val Env), (∀ pre m a b o post, l = pre ++ .trans m a b o :: post →
      lastState m pre .inactive = a ∧ Diagram (P.node m).type a b) → Path (P.node n).type .inactive (lastState n l .inactive) := by
    intro l
    induction l using List.reverseRecOn with
    | nil => intro _; exact .refl _
    | append_singleton l e ih =>
      intro hl
      have ih' := ih (fun pre m a b o post heq => hl pre m a b o (post ++ [e]) (by rw [heq]; simp))
      rw [lastState_append]
      cases e with
      | trans m a b o =>
        obtain ⟨h1, h2⟩ := hl l m a b o [] rfl
        by_cases hm : m = n
        · subst hm
          simp only [lastState, if_true]
          exact .snoc ih' (h1 ▸ h2)
        · simp only [lastState, hm, if_false]; exact ih'
      | _ => exact ih'
  exact key s.log (fun pre m a b o post heq => C01_history h heq)

/-- An execution in which 15 transitions of nodes of four types have been reported. -/
example : ∃ s, Reach demo .idle s ∧ (s.log.filter fun | .trans .. => true | _ => false).length = 15 ∧ s.st 2 = .finished := by
  obtain ⟨ph, s, h, hf⟩ := exists_run demo [.cmd (.ext 0 [0]), .macroStep, .macroStep, .macroStep] (fun _ => 0) 0
    (fun x => (x.1, (x.2.log.filter fun | .trans .. => true | _ => false).length, x.2.st 2)) (.idle, 15, .finished) rfl
  simp only [Prod.mk.injEq] at hf
  obtain ⟨rfl, h2, h3⟩ := hf
  exact ⟨s, h, h2, h3⟩

/-! ## C03, C04 -/

/-- C03: outcome and failure type fit the state, in every reachable situation. -/
theorem C03_consistent {ph : Phase} {s : St Val Env} (h : Reach P ph s) (n : NodeId) : Consistent (s.st n) (s.out n) (s.fail n) :=
  (h.inv.1.N.ok n).2

/-- C03, spelled out. -/
theorem C03_spelled_out {ph : Phase} {s : St Val Env} (h : Reach P ph s) (n : NodeId) :
    (s.st n = .inactive ∨ s.st n = .waiting ∨ s.st n = .executing ∨ s.st n = .finishing → s.out n = .none ∧ s.fail n = .none) ∧
    (s.st n = .iterationEnded ∨ s.st n = .finished → s.out n ≠ .none) ∧
    (s.fail n ≠ .none ↔ s.out n = .failure ∨ s.out n = .interrupted) ∧
    (s.st n = .failing → s.fail n ≠ .none) := by
  have := C03_consistent h n
  generalize s.st n = a at *
  generalize s.out n = o at *
  generalize s.fail n = f at *
  cases a <;> simp only [Consistent] at this <;> revert this <;> cases o <;> cases f <;> simp

/-- C04: as soon as a node is back in WAITING or INACTIVE, nothing is left of the results of earlier iterations, and no decision about
outcomes made for an earlier iteration is pending. -/
theorem C04_clean_slate {ph : Phase} {s : St Val Env} (h : Reach P ph s) (n : NodeId) (hs : s.st n = .waiting ∨ s.st n = .inactive) :
    s.out n = .none ∧ s.fail n = .none ∧ (n ∉ s.change → s.nxO n = .none ∧ s.nxF n = .none) :=
  ⟨((C03_spelled_out h n).1 (by tauto)).1, ((C03_spelled_out h n).1 (by tauto)).2, h.inv.1.N.clean n⟩

/-- A repeating plan: a list (0) that repeats, with an Empty child (1) whose invariant fails. -/
def repeating : Plan Int Nat where
  node := fun
    | 0 => { type := .list, children := [1], rhs := fun _ => 0, rep := some fun _ => some true }
    | 1 => { type := .empty, anc := [0], rhs := fun _ => 0, inv := some fun _ => some false, rep := some fun _ => some false }
    | _ => { type := .empty, rhs := fun _ => 0 }
  wake := fun _ _ => [0, 1]

/-- The node that failed is INACTIVE again, with a clean slate. -/
example : ∃ ph s, Reach repeating ph s ∧ (∃ o, .trans 1 .finished .inactive o ∈ s.log) ∧ s.st 1 = .inactive := by
  let f : Event Int Nat → Bool := fun | .trans 1 .finished .inactive _ => true | _ => false
  obtain ⟨ph, s, h, hf⟩ := exists_run repeating [.cmd (.ext 0 [0]), .cmd .begin, .steps 50] (fun _ => 0) 0
    (fun x => (x.2.log.any f, x.2.st 1)) (true, .inactive) rfl
  simp only [Prod.mk.injEq, List.any_eq_true] at hf
  obtain ⟨⟨e, h1, h2⟩, h3⟩ := hf
  refine ⟨ph, s, h, ?_, h3⟩
  simp only [f] at h2
  split at h2
  · exact ⟨_, h1⟩
  · cases h2

/-! ## C05 -/

/-- C05, whole histories. The decision behind a reported transition was made in the situation `o` at the beginning of the micro step
(the transitions reported since then, `mid`, are those of other nodes in the same micro step). In that situation:
a node that became WAITING from INACTIVE was a root or had an EXECUTING parent; it left INACTIVE at all only if its parent was EXECUTING or
FINISHED (FINISHED leads to FINISHED); a node that left FINISHED had a WAITING parent, and became INACTIVE; and a list node that left FINISHING
or FAILING other than from FINISHING to FAILING had only WAITING and FINISHED children. -/
theorem C05_history {ph : Phase} {s : St Val Env} (h : Reach P ph s) {pre n a b o post} (hl : s.log = pre ++ .trans n a b o :: post) :
    ∃ pre0 mid, pre = pre0 ++ mid ∧ MicroSeg pre0 mid o ∧ (∀ m a' b' o', .trans m a' b' o' ∈ mid → m ≠ n) ∧
      (a = .inactive → b = .waiting → ∀ p, (P.node n).anc.head? = some p → o.st p = .executing) ∧
      (a = .inactive → ∀ p, (P.node n).anc.head? = some p → o.st p = .executing ∨ (o.st p = .finished ∧ b = .finished)) ∧
      (a = .finished → b = .inactive ∧ ∃ p, (P.node n).anc.head? = some p ∧ o.st p = .waiting) ∧
      ((P.node n).type = .list → (a = .finishing ∧ b ≠ .failing ∨ a = .failing) →
        ∀ c ∈ (P.node n).children, o.st c = .waiting ∨ o.st c = .finished) := by
  obtain ⟨h1, d, o', h2, rfl, h3, h4, h5⟩ := h.inv.1.N.log pre _ post hl
  obtain ⟨pre0, mid, g1, g2, g3⟩ := h.baseOK.1 pre n a d.state o post hl
  have hdec : getDest (P.node n).type a (parentState P o' n) (o'.fail n) (conds P o' n) = some d := by rw [← h3]; exact h2
  refine ⟨pre0, mid, g1, g2, g3, ?_, ?_, ?_, ?_⟩
  · rintro rfl hb p hp
    have := h5 (by rw [hb]; simp)
    subst this
    rcases (Verif.Props.Node.C05_parent_gates_child _ _ _ _).1 d hdec hb with g | g
    · simp [parentState, hp] at g
    · simpa [parentState, hp] using g
  · rintro rfl p hp
    have hne : d.state ≠ .executing := by
      intro e; have := (getDest_executing hdec e).1; cases this
    have := h5 (by simp [hne])
    subst this
    rcases (Verif.Props.Node.C05_parent_gates_child _ _ _ _).2.2.1 d hdec with g | g | g
    · simp [parentState, hp] at g
    · left; simpa [parentState, hp] using g
    · right
      refine ⟨by simpa [parentState, hp] using g, ?_⟩
      have := (Verif.Props.Node.C05_parent_gates_child (P.node n).type (parentState P o' n) (o'.fail n) (conds P o' n)).2.1 g
      rw [this] at hdec; cases hdec; rfl
  · rintro rfl
    obtain ⟨g4, g5⟩ := (Verif.Props.Node.C05_parent_gates_child _ _ _ _).2.2.2 d hdec
    have := h5 (by rw [g5]; simp)
    subst this
    refine ⟨g5, ?_⟩
    unfold parentState at g4
    cases hh : (P.node n).anc.head? with
    | none => rw [hh] at g4; simp at g4
    | some p => rw [hh] at g4; exact ⟨p, rfl, by simpa using g4⟩
  · intro ht hab c hc
    have hne : d.state ≠ .executing := by
      intro e; have := (getDest_executing hdec e).1; rw [this] at hab; rcases hab with ⟨g, _⟩ | g <;> cases g
    have := h5 (by simp [hne])
    subst this
    rw [ht] at hdec
    have hab' : a = .finishing ∨ a = .failing := by rcases hab with ⟨g, _⟩ | g <;> simp [g]
    have hnf : d.state ≠ .failing := by
      rcases hab with ⟨_, g⟩ | g
      · exact g
      · subst g
        intro e
        have := (Verif.Props.Node.C01_destination_in_diagram _ _ _ _ _ _ (by simp [StateExists]) hdec).1
        rw [e] at this
        cases this
    have := Verif.Props.Node.C05_list_waits_for_children _ _ _ a d hab' hdec hnf
    simp only [Verif.Props.Node.True', conds, ht, Option.some.injEq, allWaitingOrFinished, List.all_eq_true] at this
    simpa using this c hc

/-- All four cases occur in one execution. -/
example : ∃ ph s, Reach repeating ph s ∧ (∃ o, .trans 1 .inactive .waiting o ∈ s.log) ∧ (∃ o, .trans 1 .finished .inactive o ∈ s.log) ∧
    (∃ o, .trans 0 .finishing .iterationEnded o ∈ s.log) := by
  let f : Event Int Nat → Bool := fun | .trans 1 .finished .inactive _ => true | _ => false
  let g : Event Int Nat → Bool := fun | .trans 1 .inactive .waiting _ => true | _ => false
  let k : Event Int Nat → Bool := fun | .trans 0 .finishing .iterationEnded _ => true | _ => false
  obtain ⟨ph, s, h, hf⟩ := exists_run repeating [.cmd (.ext 0 [0]), .cmd .begin, .steps 50] (fun _ => 0) 0
    (fun x => (x.2.log.any f, x.2.log.any g, x.2.log.any k)) (true, true, true) rfl
  simp only [Prod.mk.injEq, List.any_eq_true] at hf
  obtain ⟨⟨e1, h1, h2⟩, ⟨e2, h3, h4⟩, ⟨e3, h5, h6⟩⟩ := hf
  simp only [f] at h2
  simp only [g] at h4
  simp only [k] at h6
  refine ⟨ph, s, h, ?_, ?_, ?_⟩
  · split at h4
    · exact ⟨_, h3⟩
    · cases h4
  · split at h2
    · exact ⟨_, h1⟩
    · cases h2
  · split at h6
    · exact ⟨_, h5⟩
    · cases h6

/-! ## C10, C11, C12 -/

/-- C10: two nodes that are running (EXECUTING, FINISHING or FAILING) never share a mutex, nor, for Assignments, the variable. -/
theorem C10_mutual_exclusion {ph : Phase} {s : St Val Env} (h : Reach P ph s) {m n : NodeId} {r : Res}
    (hm : Running (s.st m)) (hn : Running (s.st n)) (hrm : r ∈ resources P m) (hrn : r ∈ resources P n) : m = n := by
  have h1 := h.inv.1.N.held m (.inl hm) r hrm
  have h2 := h.inv.1.N.held n (.inl hn) r hrn
  rw [h1] at h2; simpa using h2

/-- C10: a running node holds every resource it names, and holds it since before its transition to EXECUTING. -/
theorem C10_holds {ph : Phase} {s : St Val Env} (h : Reach P ph s) {n : NodeId} {r : Res} (hr : r ∈ resources P n) :
    (Running (s.st n) → s.holder r = some n) ∧
    (∀ {ph' s'}, Step P (ph, s) (ph', s') → s.st n ≠ .executing → s'.st n = .executing → s.holder r = some n) := by
  refine ⟨fun hn => h.inv.1.N.held n (.inl hn) r hr, ?_⟩
  intro ph' s' hs h1 h2
  obtain ⟨hI, _, _⟩ := h.inv
  cases hs with
  | trans _ k rest hc =>
    obtain ⟨d, o, oo, _, _, hnx, _, _, e1, _⟩ := transOne_fields hI hc
    rw [e1] at h2
    by_cases hk : n = k
    · subst hk
      simp only [Verif.Exec.set, if_true] at h2
      exact hI.N.held n (.inr ⟨by rw [hc]; simp, by rw [hnx, h2]⟩) r hr
    · simp only [Verif.Exec.set, hk, if_false] at h2
      exact absurd h2 h1
  | ext _ e ns => simp at h2; exact absurd h2 h1
  | ackUpd _ k =>
    unfold ackUpdate at h2
    split at h2
    · simp at h2; exact absurd h2 h1
    · exact absurd h2 h1
  | deletePlans _ => exact absurd h2 h1
  | begin _ => exact absurd h2 h1
  | check _ k rest hc =>
    obtain ⟨e1, _⟩ := (checkOne_frame (P := P) k rest s).fields
    rw [e1] at h2; exact absurd h2 h1
  | resolve _ hc hne =>
    obtain ⟨e1, _⟩ := (resolve_frame (P := P) s).fields
    rw [e1] at h2; exact absurd h2 h1
  | again _ hc hn hne => exact absurd h2 h1
  | finishQuiet _ acc rej hc hne hp =>
    obtain ⟨e1, _⟩ := (resolve_frame (P := P) s).fields
    rw [(finishStep_fields _ _ _).1, e1] at h2; exact absurd h2 h1
  | finish _ acc rej hc hne hp => rw [(finishStep_fields _ _ _).1] at h2; exact absurd h2 h1

/-- C10: an attempt to acquire never takes a resource away from another node. -/
theorem C10_no_stealing (n m : NodeId) (hm : m ≠ n) (r : Res) (s : St Val Env) :
    (tryAcquire P n s).2.holder r = some m ↔ s.holder r = some m :=
  (tryAcquire_eff P n s).holder r m hm

/-- C11: an attempt succeeds exactly if all resources are free (and none is named twice); then the node holds them all. If it
fails, nobody gets anything, the node keeps none of its mutexes, and it is on the wait list of each of its resources. -/
theorem C11_all_or_nothing (n : NodeId) (s : St Val Env) :
    ((tryAcquire P n s).1 = true ↔ (resources P n).Nodup ∧ ∀ r ∈ resources P n, s.holder r = none) ∧
    ((tryAcquire P n s).1 = true → ∀ r, (tryAcquire P n s).2.holder r = if r ∈ resources P n then some n else s.holder r) ∧
    ((tryAcquire P n s).1 = false → (∀ m ∈ (P.node n).mutexes, (tryAcquire P n s).2.holder (.mutex m) ≠ some n) ∧
      (∀ r ∈ resources P n, n ∈ (tryAcquire P n s).2.waiters r) ∧
      (∀ r, (tryAcquire P n s).2.holder r = s.holder r ∨ ((tryAcquire P n s).2.holder r = none ∧ s.holder r = some n))) := by
  obtain ⟨h1, h2, h3⟩ := tryAcquire_spec P n s
  refine ⟨h1, h2, fun hf => ⟨(h3 hf).1, (h3 hf).2.1, fun r => ?_⟩⟩
  rcases (h3 hf).2.2 r with g | ⟨g1, g2, _⟩
  · exact .inl g
  · exact .inr ⟨g1, g2⟩

/-- The statement about resources: mutual exclusion is not trivial, two nodes want the same mutex, one runs and the other waits. -/
example : ∃ s, Reach demo .idle s ∧ Running (s.st 1) ∧ .mutex 0 ∈ resources demo 1 ∧ .mutex 0 ∈ resources demo 2 ∧ 2 ∈ s.pending ∧
    (tryAcquire demo 2 s).1 = false := by
  obtain ⟨ph, s, h, hf⟩ := exists_run demo [.cmd (.ext 0 [0]), .macroStep] (fun _ => 0) 0
    (fun x => (x.1, x.2.st 1, x.2.pending, (tryAcquire demo 2 x.2).1)) (.idle, .executing, [2], false) rfl
  simp only [Prod.mk.injEq] at hf
  obtain ⟨rfl, h2, h3, h4⟩ := hf
  exact ⟨s, h, .inl h2, by decide, by decide, by rw [h3]; simp, h4⟩

theorem _root_.Verif.Exec.Reach.not_busy {ph : Phase} {s : St Val Env} (h : Reach P ph s) {n : NodeId}
    (hs : s.st n = .iterationEnded ∨ s.st n = .finished ∨ s.st n = .inactive ∨ (s.st n = .waiting ∧ n ∉ s.change)) :
    ¬ (Running (s.st n) ∨ (n ∈ s.change ∧ s.nx n = some .executing)) := by
  rintro (g | ⟨g1, g2⟩)
  · rcases hs with e | e | e | ⟨e, _⟩ <;> rw [e] at g <;> rcases g with g | g | g <;> cases g
  · obtain ⟨d, o, hd, ho, _, hnx, _⟩ := h.inv.1.N.dec n g1
    rw [hnx] at g2
    have := (getDest_executing hd (by simpa using g2)).1
    rw [ho] at this
    rcases hs with e | e | e | ⟨_, e⟩
    · rw [this] at e; cases e
    · rw [this] at e; cases e
    · rw [this] at e; cases e
    · exact e g1

/-- C12, the part that holds: a node that never went straight from a running state to FINISHED holds nothing when it is in
ITERATION_ENDED or FINISHED, nor in INACTIVE, nor in WAITING unless it is just about to execute.
Missing (and false, see `C12_mutex_leaks`): the same for nodes that went from EXECUTING or FAILING to FINISHED. -/
theorem C12_released_partial {ph : Phase} {s : St Val Env} (h : Reach P ph s) {n : NodeId} (hc : NeverCutOff n s.log)
    (hs : s.st n = .iterationEnded ∨ s.st n = .finished ∨ s.st n = .inactive ∨ (s.st n = .waiting ∧ n ∉ s.change)) (r : Res) :
    s.holder r ≠ some n := by
  intro hh
  exact h.not_busy hs (h.hinv.busy r n (.inl hc) hh)

/-- C12, variables (no exception): an Assignment node that is not running has given its variable back, however it ended. -/
theorem C12_variable_released {ph : Phase} {s : St Val Env} (h : Reach P ph s) {n : NodeId}
    (hs : s.st n = .iterationEnded ∨ s.st n = .finished ∨ s.st n = .inactive ∨ (s.st n = .waiting ∧ n ∉ s.change)) (v : Nat) :
    s.holder (.var v) ≠ some n := by
  intro hh
  exact h.not_busy hs (h.hinv.busy (.var v) n (.inr trivial) hh)

/-- A list (0) with exit condition "env = 1" and an Assignment child (1), writing variable 3. -/
def cutAssignment : Plan Int Nat where
  node := fun
    | 0 => { type := .list, children := [1], rhs := fun _ => 0, exit := some fun o => some (o.env == 1), rep := some fun _ => some false }
    | 1 => { type := .assignment, anc := [0], dest := 3, rhs := fun _ => 7, rep := some fun _ => some false, endc := some fun _ => some false }
    | _ => { type := .empty, rhs := fun _ => 0 }
  wake := fun _ _ => [0, 1]

/-- The hypotheses are met by an Assignment node that was cut off: it went from EXECUTING through FAILING directly to FINISHED, while the
variable was in use before. -/
example : ∃ s, Reach cutAssignment .idle s ∧ s.st 1 = .finished ∧ (∃ o, .trans 1 .failing .finished o ∈ s.log) := by
  let f : Event Int Nat → Bool := fun | .trans 1 .failing .finished _ => true | _ => false
  obtain ⟨ph, s, h, hf⟩ := exists_run cutAssignment [.cmd (.ext 0 [0]), .macroStep, .cmd (.ext 1 [0, 1]), .macroStep, .macroStep] (fun _ => 0) 0
    (fun x => (x.1, x.2.st 1, x.2.log.any f)) (.idle, .finished, true) rfl
  simp only [Prod.mk.injEq, List.any_eq_true] at hf
  obtain ⟨rfl, h2, ⟨e, h3, h3'⟩⟩ := hf
  refine ⟨s, h, h2, ?_⟩
  simp only [f] at h3'
  split at h3'
  · exact ⟨_, h3⟩
  · cases h3'

/-- C12: whatever a node holds, it is one of the resources it names. -/
theorem C12_only_own {ph : Phase} {s : St Val Env} (h : Reach P ph s) {n : NodeId} {r : Res} (hh : s.holder r = some n) :
    r ∈ resources P n := h.hinv.own r n hh

/-- The hypotheses are met: node 1 has run with its mutex, ended normally and released it. -/
example : ∃ s, Reach demo .idle s ∧ s.st 1 = .finished ∧ NeverCutOff 1 s.log ∧ (∃ o, .start 1 o ∈ s.log) := by
  let f : Event Int Nat → Bool := fun | .start 1 _ => true | _ => false
  let g : Event Int Nat → Bool := fun
    | .trans 1 a .finished _ => a != .executing && a != .finishing && a != .failing
    | _ => true
  obtain ⟨ph, s, h, hf⟩ := exists_run demo [.cmd (.ext 0 [0]), .macroStep, .macroStep] (fun _ => 0) 0
    (fun x => (x.1, x.2.st 1, x.2.log.any f, x.2.log.all g)) (.idle, .finished, true, true) rfl
  simp only [Prod.mk.injEq, List.any_eq_true, List.all_eq_true] at hf
  obtain ⟨rfl, h2, ⟨e, h3, h3'⟩, h4⟩ := hf
  refine ⟨s, h, h2, ?_, ?_⟩
  · intro a o ha hr
    have := h4 _ ha
    rcases hr with rfl | rfl | rfl <;> simp [g] at this
  · simp only [f] at h3'
    split at h3'
    · exact ⟨_, h3⟩
    · cases h3'

/-- A list (0) with exit condition "env = 1" and an Empty child (1) using mutex 0; another root (2), Empty, uses the same mutex, and
starts when env is 1. -/
def leaking : Plan Int Nat where
  node := fun
    | 0 => { type := .list, children := [1], rhs := fun _ => 0, exit := some fun o => some (o.env == 1) }
    | 1 => { type := .empty, anc := [0], rhs := fun _ => 0, mutexes := [0], endc := some fun _ => some false, rep := some fun _ => some false }
    | 2 => { type := .empty, rhs := fun _ => 0, mutexes := [0], start := some fun o => some (o.env == 1), rep := some fun _ => some false }
    | _ => { type := .empty, rhs := fun _ => 0 }
  wake := fun
    | .post _ => fun _ => [0, 1]
    | _ => fun _ => []

/-- C12 is false of the code when a node is cut off: here an Empty node is stopped by its ancestor's exit condition, is FINISHED, and
still holds its mutex although its whole plan is FINISHED; another node that wants the mutex waits, and nothing is left to do
(`NodeImpl.cc:1377-1384` releases only on WAITING to FINISHED). -/
theorem C12_mutex_leaks : ∃ s, Reach leaking .idle s ∧ s.st 0 = .finished ∧ s.st 1 = .finished ∧ s.holder (.mutex 0) = some 1 ∧
    s.st 2 = .waiting ∧ s.pending = [2] ∧ s.q 2 = .pending ∧ s.cand = [] := by
  obtain ⟨ph, s, h, hf⟩ := exists_run leaking [.cmd (.ext 0 [0, 2]), .macroStep, .cmd (.ext 1 [0, 1, 2]), .macroStep] (fun _ => 0) 0
    (fun x => (x.1, x.2.st 0, x.2.st 1, x.2.holder (.mutex 0), x.2.st 2, x.2.pending, x.2.q 2, x.2.cand))
    (.idle, .finished, .finished, some 1, .waiting, [2], .pending, []) rfl
  simp only [Prod.mk.injEq] at hf
  obtain ⟨rfl, h1, h2, h3, h4, h5, h6, h7⟩ := hf
  exact ⟨s, h, h1, h2, h3, h4, h5, h6, h7⟩

/-! ## C14, C15, C16 -/

/-- C16: between macro steps, the log is a sequence of complete macro steps as described by `MacroStep`: transitions first, then one
assignment per started Assignment, one retraction per Assignment that moved to FAILING, each started Command executed or denied,
one abort per Command that moved to FAILING, one update per started Update, in this order, and nothing else. -/
theorem C16_macro_steps {s : St Val Env} (h : Reach P .idle s) : Macros P s.log := by
  obtain ⟨before, cur, hl, hm, _, hc, _⟩ := h.output
  rw [hl, hc rfl]; simpa using hm

/-- C14: if an Assignment node starts in situation `o`, then at the end of the macro step it has performed exactly one assignment, of the
value its right-hand side had in `o`, it has not been retracted, and its variable has that value. -/
theorem C14_commits_start_value {ph : Phase} {s : St Val Env} (h : Reach P ph s) {A B C n o o'}
    (hl : s.log = A ++ .start n o :: B ++ .stepDone o' :: C) (hB : ∀ e ∈ B, ¬ IsDone e) (ht : (P.node n).type = .assignment) :
    o'.vars (P.node n).dest = (P.node n).rhs o ∧ assignsOf n B = [(P.node n).rhs o] ∧ retractsOf n B = [] := by
  obtain ⟨l, C', hm, hl'⟩ := h.macros hl
  obtain ⟨before, A', tr', acc, rej, _, hmv, hB', _, h2, _, _, _, _, h7, h8⟩ := hm.around_move (e := .start n o) trivial hB hl'
  have hmem : (n, o) ∈ starts P .assignment (A' ++ .start n o :: tr') := by
    rw [starts_append]; simp [starts, ht]
  refine ⟨h7 _ hmem, ?_, ?_⟩
  · rw [hB', assignsOf_append, assignsOf_moves n tr' (fun e he => hmv e (by simp [he])), assignsOf_outputs,
      filterMap_one _ _ _ n (n, o) hmem rfl h2]
    rfl
  · rw [hB', retractsOf_append, retractsOf_moves n tr' (fun e he => hmv e (by simp [he])), retractsOf_outputs]
    refine filterMap_zero _ (fun x => x) _ n ?_
    intro hf
    rw [List.map_id'] at hf
    exact (h8 n hf).1 (List.mem_map.2 ⟨_, hmem, rfl⟩)

/-- C15: if an Assignment node moves to FAILING, then at the end of the macro step it has been retracted exactly once and its variable
has the value it had when the node last started, which was in an earlier macro step. -/
theorem C15_retract_restores {ph : Phase} {s : St Val Env} (h : Reach P ph s) {A B C n a ob o'}
    (hl : s.log = A ++ .trans n a .failing ob :: B ++ .stepDone o' :: C) (hB : ∀ e ∈ B, ¬ IsDone e)
    (ht : (P.node n).type = .assignment) :
    ∃ o, lastStart n A none = some o ∧ (∀ o2, .start n o2 ∉ B) ∧ o'.vars (P.node n).dest = o.vars (P.node n).dest ∧
      retractsOf n B = [o.vars (P.node n).dest] ∧ assignsOf n B = [] := by
  obtain ⟨l, C', hm, hl'⟩ := h.macros hl
  obtain ⟨before, A', tr', acc, rej, hA, hmv, hB', _, _, _, _, h5, _, _, h8⟩ :=
    hm.around_move (e := .trans n a .failing ob) trivial hB hl'
  have hmem : n ∈ failings P .assignment (A' ++ .trans n a .failing ob :: tr') := by
    rw [failings_append]; simp [failings, ht]
  obtain ⟨hns, o, g1, g2⟩ := h8 n hmem
  have hno : ∀ o2, .start n o2 ∉ A' ++ .trans n a .failing ob :: tr' := by
    intro o2 ho
    exact hns (List.mem_map.2 ⟨(n, o2), List.mem_filterMap.2 ⟨_, ho, by simp [ht]⟩, rfl⟩)
  refine ⟨o, ?_, ?_, g2, ?_, ?_⟩
  · rw [hA, lastStart_append, lastStart_absent n A' (fun o2 ho => hno o2 (by simp [ho]))]; exact g1
  · intro o2 ho
    rw [hB'] at ho
    rcases List.mem_append.1 ho with ho | ho
    · exact hno o2 (by simp [ho])
    · exact (outputs_not _ _ _ _ _ ho).1 trivial
  · rw [hB', retractsOf_append, retractsOf_moves n tr' (fun e he => hmv e (by simp [he])), retractsOf_outputs,
      filterMap_one _ (fun x => x) _ n n hmem rfl (by rw [List.map_id']; exact h5), g2]
    rfl
  · rw [hB', assignsOf_append, assignsOf_moves n tr' (fun e he => hmv e (by simp [he])), assignsOf_outputs]
    exact filterMap_zero _ Prod.fst _ n hns

/-- C16, commands: a Command node that starts in situation `o` is, within the macro step, exactly once either executed with the arguments
it had in `o` or denied. -/
theorem C16_command_once {ph : Phase} {s : St Val Env} (h : Reach P ph s) {A B C n o o'}
    (hl : s.log = A ++ .start n o :: B ++ .stepDone o' :: C) (hB : ∀ e ∈ B, ¬ IsDone e) (ht : (P.node n).type = .command) :
    commandsOf n B = [some ((P.node n).rhs o)] ∨ commandsOf n B = [none] := by
  obtain ⟨l, C', hm, hl'⟩ := h.macros hl
  obtain ⟨before, A', tr', acc, rej, _, hmv, hB', hp, _, h3, _⟩ := hm.around_move (e := .start n o) trivial hB hl'
  have hmem : (n, o) ∈ starts P .command (A' ++ .start n o :: tr') := by
    rw [starts_append]; simp [starts, ht]
  have hnd : ((acc ++ rej).map Prod.fst).Nodup := (hp.map Prod.fst).nodup_iff.2 h3
  rw [hB', commandsOf_append, commandsOf_moves n tr' (fun e he => hmv e (by simp [he])), commandsOf_outputs]
  rw [List.map_append, List.nodup_append] at hnd
  rcases List.mem_append.1 (hp.mem_iff.2 hmem) with hm1 | hm1
  · left
    rw [filterMap_one acc Prod.fst _ n (n, o) hm1 rfl hnd.1, filterMap_zero rej Prod.fst _ n]
    · rfl
    · intro hr; exact hnd.2.2 n (List.mem_map.2 ⟨_, hm1, rfl⟩) n hr rfl
  · right
    rw [filterMap_one rej Prod.fst _ n (n, o) hm1 rfl hnd.2.1, filterMap_zero acc Prod.fst _ n]
    · rfl
    · intro hr; exact hnd.2.2 n hr n (List.mem_map.2 ⟨_, hm1, rfl⟩) rfl

/-- C16, updates and aborts. -/
theorem C16_update_once {ph : Phase} {s : St Val Env} (h : Reach P ph s) {A B C n o o'}
    (hl : s.log = A ++ .start n o :: B ++ .stepDone o' :: C) (hB : ∀ e ∈ B, ¬ IsDone e) (ht : (P.node n).type = .update) :
    updatesOf n B = [(P.node n).rhs o] := by
  obtain ⟨l, C', hm, hl'⟩ := h.macros hl
  obtain ⟨before, A', tr', acc, rej, _, hmv, hB', _, _, _, h4, _⟩ := hm.around_move (e := .start n o) trivial hB hl'
  have hmem : (n, o) ∈ starts P .update (A' ++ .start n o :: tr') := by
    rw [starts_append]; simp [starts, ht]
  rw [hB', updatesOf_append, updatesOf_moves n tr' (fun e he => hmv e (by simp [he])), updatesOf_outputs,
    filterMap_one _ _ _ n (n, o) hmem rfl h4]
  rfl

theorem C16_abort_once {ph : Phase} {s : St Val Env} (h : Reach P ph s) {A B C n a ob o'}
    (hl : s.log = A ++ .trans n a .failing ob :: B ++ .stepDone o' :: C) (hB : ∀ e ∈ B, ¬ IsDone e)
    (ht : (P.node n).type = .command) : abortsOf n B = [()] := by
  obtain ⟨l, C', hm, hl'⟩ := h.macros hl
  obtain ⟨before, A', tr', acc, rej, hA, hmv, hB', _, _, _, _, _, h6, _, _⟩ :=
    hm.around_move (e := .trans n a .failing ob) trivial hB hl'
  have hmem : n ∈ failings P .command (A' ++ .trans n a .failing ob :: tr') := by
    rw [failings_append]; simp [failings, ht]
  rw [hB', abortsOf_append, abortsOf_moves n tr' (fun e he => hmv e (by simp [he])), abortsOf_outputs,
    filterMap_one _ (fun x => x) _ n n hmem rfl (by rw [List.map_id']; exact h6)]
  rfl

/-- What an event is about, for examples. -/
def kind : Event Int Nat → Nat × Int
  | .trans n _ .failing _ => (1, n)
  | .trans n .. => (0, n)
  | .start n _ => (2, n)
  | .assign n _ => (3, n)
  | .retract n _ => (4, n)
  | .command n _ => (5, n)
  | .deny n => (6, n)
  | .abort n => (7, n)
  | .update n _ => (8, n)
  | .stepDone _ => (9, 0)

/-- The log of a concrete execution with an assignment that commits, one that is interrupted, a command that is aborted, and an
update: the hypotheses of the theorems above are met. -/
example : ∃ s, Reach demo .idle s ∧ s.vars 0 = 7 ∧ s.vars 1 = 0 ∧ (s.log.map kind).filter (fun k => k.1 != 0) =
    [(2, 0), (2, 3), (2, 4), (2, 1), (3, 1), (5, 3), (8, 4), (9, 0), (2, 2), (3, 2), (9, 0), (1, 3), (1, 2), (4, 2), (7, 3), (9, 0)] := by
  obtain ⟨ph, s, h, hf⟩ := exists_run demo [.cmd (.ext 0 [0]), .macroStep, .macroStep, .cmd (.ext 5 [0, 1, 2, 3, 4]), .macroStep]
    (fun _ => 0) 0
    (fun x => (x.1, x.2.vars 0, x.2.vars 1, (x.2.log.map kind).filter (fun k => k.1 != 0)))
    (.idle, 7, 0, [(2, 0), (2, 3), (2, 4), (2, 1), (3, 1), (5, 3), (8, 4), (9, 0), (2, 2), (3, 2), (9, 0), (1, 3), (1, 2), (4, 2),
      (7, 3), (9, 0)]) rfl
  simp only [Prod.mk.injEq] at hf
  obtain ⟨rfl, h1, h2, h3⟩ := hf
  exact ⟨s, h, h1, h2, h3⟩

/-! ## C35 -/

/-- C35: between any two moments of an execution, every variable changes exactly as the events in between report: by assignments,
retractions, and the initialisation of local variables of starting nodes. -/
theorem C35_variables_change_only_as_reported {ph ph' : Phase} {s s' : St Val Env} (hr : Reach P ph s)
    (hs : Relation.ReflTransGen (Step P) (ph, s) (ph', s')) :
    ∃ l, s'.log = s.log ++ l ∧ ∀ v, s'.vars v = replay P v l (s.vars v) := by
  have key : ∀ x : Phase × St Val Env, Relation.ReflTransGen (Step P) (ph, s) x → Reach P x.1 x.2 ∧ Replays P s x.2 := by
    intro x hx
    induction hx with
    | refl => exact ⟨hr, .same rfl rfl⟩
    | tail _ hst ih => exact ⟨ih.1.step hst, ih.2.trans (.step ih.1 hst)⟩
  exact (key _ hs).2

end Verif.Props.Exec
