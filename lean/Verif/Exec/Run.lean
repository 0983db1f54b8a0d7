import Verif.Exec.Hist
/-
An executable driver, used only to exhibit concrete executions (non-vacuity and counterexamples). It is proved to produce only
executions of the model.
-/
namespace Verif.Exec
open Verif.Node

variable {Val Env : Type} (P : Plan Val Env)

/-- What happens next. -/
inductive Cmd (Env : Type)
  /-- The environment changes, notifying nodes. -/
  | ext (e : Env) (ns : List NodeId)
  | ackUpd (n : NodeId)
  | deletePlans
  | begin
  /-- Pop one candidate. -/
  | check
  | resolve
  /-- Perform one transition. -/
  | trans
  | again
  /-- End the macro step, denying the commands in `rej`. -/
  | finishQuiet (rej : List NodeId)
  | finish (rej : List NodeId)

/-- `resolveFrom` by structural recursion. -/
def resolveFuel : Nat → List NodeId → St Val Env → St Val Env
  | 0, _, s => s
  | _, [], s => s
  | k + 1, n :: rest, s =>
    let t := collect P (P.node n).priority (n :: rest) s
    resolveFuel k t.2.1 (acquireGroup P t.1 t.2.2)

theorem resolveFuel_eq (k : Nat) : ∀ (l : List NodeId) (s : St Val Env), l.length ≤ k → resolveFuel P k l s = resolveFrom P l s := by
  induction k with
  | zero =>
    intro l s h
    have : l = [] := List.length_eq_zero_iff.1 (by omega)
    subst this; rw [resolveFrom, resolveFuel]
  | succ k ih =>
    intro l s h
    cases l with
    | nil => rw [resolveFrom]; rfl
    | cons n rest =>
      rw [resolveFrom]
      simp only [resolveFuel]
      apply ih
      simp only [List.length_cons] at h
      simp only [collect, if_true]
      split
      · simp
      · have := collect_length P (P.node n).priority rest (eligible P n s).2.2
        simp only; omega

/-- One step; `none` if not possible. -/
def drive (c : Cmd Env) (x : Phase × St Val Env) : Option (Phase × St Val Env) :=
  let s := x.2
  match c, x.1 with
  | .ext e ns, .idle => some (.idle, notifyAll ns { s with env := e })
  | .ackUpd n, .idle => some (.idle, ackUpdate P n s)
  | .deletePlans, .idle => some (.idle, { s with fin := [] })
  | .begin, .idle => some (.check, { s with base := s.obs })
  | .check, .check => match s.cand with
    | [] => none
    | n :: rest => some (.check, checkOne P n { s with cand := rest })
  | .resolve, .check =>
    let s' := resolveFuel P s.pending.length s.pending s
    if s.cand = [] ∧ s'.change ≠ [] then some (.trans, s') else none
  | .trans, .trans => match s.change with
    | [] => none
    | n :: rest => some (.trans, transOne P n { s with change := rest })
  | .again, .trans =>
    if s.change = [] ∧ s.asg = [] ∧ s.ret = [] ∧ s.cmds = [] ∧ s.aborts = [] ∧ s.cand ≠ [] then some (.check, { s with base := s.obs })
    else none
  | .finishQuiet rej, .check =>
    let s' := resolveFuel P s.pending.length s.pending s
    let acc := s.cmds.filter (fun c => !decide (c ∈ rej))
    if s.cand = [] ∧ s'.change = [] ∧ (acc ++ rej).isPerm s.cmds then some (.idle, finishStep P acc rej s') else none
  | .finish rej, .trans =>
    let acc := s.cmds.filter (fun c => !decide (c ∈ rej))
    if s.change = [] ∧ ¬ ((s.asg = [] ∧ s.ret = [] ∧ s.cmds = [] ∧ s.aborts = []) ∧ s.cand ≠ []) ∧ (acc ++ rej).isPerm s.cmds then
      some (.idle, finishStep P acc rej s)
    else none
  | _, _ => none

theorem drive_step {c : Cmd Env} {x y : Phase × St Val Env} (h : drive P c x = some y) : Step P x y := by
  obtain ⟨ph, s⟩ := x
  unfold drive at h
  simp only [resolveFuel_eq P _ s.pending s (Nat.le_refl _)] at h
  split at h
  · cases h; exact .ext ..
  · cases h; exact .ackUpd ..
  · cases h; exact .deletePlans ..
  · cases h; exact .begin ..
  · split at h
    · cases h
    · rename_i hc; cases h; exact .check _ _ _ hc
  · split at h
    · rename_i hc; cases h; exact .resolve _ hc.1 hc.2
    · cases h
  · split at h
    · cases h
    · rename_i hc; cases h; exact .trans _ _ _ hc
  · split at h
    · rename_i hc; cases h; exact .again _ hc.1 ⟨hc.2.1, hc.2.2.1, hc.2.2.2.1, hc.2.2.2.2.1⟩ hc.2.2.2.2.2
    · cases h
  · split at h
    · rename_i hc; cases h; exact .finishQuiet _ _ _ hc.1 hc.2.1 (List.isPerm_iff.1 hc.2.2)
    · cases h
  · split at h
    · rename_i hc; cases h; exact .finish _ _ _ hc.1 hc.2.1 (List.isPerm_iff.1 hc.2.2)
    · cases h
  · cases h

/-- The natural next thing to do within a macro step, denying no command. -/
def autoCmd (x : Phase × St Val Env) : Cmd Env :=
  match x.1 with
  | .idle => .begin
  | .check => match x.2.cand with
    | _ :: _ => .check
    | [] => match (resolveFuel P x.2.pending.length x.2.pending x.2).change with
      | [] => .finishQuiet []
      | _ => .resolve
  | .trans => match x.2.change with
    | _ :: _ => .trans
    | [] => match x.2.asg, x.2.ret, x.2.cmds, x.2.aborts, x.2.cand with
      | [], [], [], [], _ :: _ => .again
      | _, _, _, _, _ => .finish []

/-- `k` steps of `autoCmd`. -/
def autoSteps : Nat → Phase × St Val Env → Option (Phase × St Val Env)
  | 0, x => some x
  | k + 1, x => (drive P (autoCmd P x) x).bind (autoSteps k)

/-- The rest of the macro step, at most `k` steps. -/
def autoMacro : Nat → Phase × St Val Env → Option (Phase × St Val Env)
  | 0, _ => none
  | k + 1, x => if x.1 = .idle then some x else (drive P (autoCmd P x) x).bind (autoMacro k)

/-- Scripts: external commands, whole macro steps, numbers of internal steps. -/
inductive Script (Env : Type)
  | cmd (c : Cmd Env)
  | steps (k : Nat)
  | macroStep

def runOne (c : Script Env) (x : Phase × St Val Env) : Option (Phase × St Val Env) :=
  match c with
  | .cmd c => drive P c x
  | .steps k => autoSteps P k x
  | .macroStep => (drive P .begin x).bind (autoMacro P 1000)

def run : List (Script Env) → Phase × St Val Env → Option (Phase × St Val Env)
  | [], x => some x
  | c :: cs, x => (runOne P c x).bind (run cs)

theorem drive_reach {c : Cmd Env} {x y : Phase × St Val Env} (hx : Reach P x.1 x.2) (h : drive P c x = some y) : Reach P y.1 y.2 :=
  hx.step (ph := x.1) (s := x.2) (drive_step P h)

theorem autoSteps_reach (k : Nat) : ∀ {x y : Phase × St Val Env}, Reach P x.1 x.2 → autoSteps P k x = some y → Reach P y.1 y.2 := by
  induction k with
  | zero => intro x y hx h; simp [autoSteps] at h; subst h; exact hx
  | succ k ih =>
    intro x y hx h
    simp only [autoSteps, Option.bind_eq_some_iff] at h
    obtain ⟨z, hz, h⟩ := h
    exact ih (drive_reach P hx hz) h

theorem autoMacro_reach (k : Nat) : ∀ {x y : Phase × St Val Env}, Reach P x.1 x.2 → autoMacro P k x = some y → Reach P y.1 y.2 := by
  induction k with
  | zero => intro x y hx h; simp [autoMacro] at h
  | succ k ih =>
    intro x y hx h
    simp only [autoMacro] at h
    split at h
    · cases h; exact hx
    · rw [Option.bind_eq_some_iff] at h
      obtain ⟨z, hz, h⟩ := h
      exact ih (drive_reach P hx hz) h

theorem run_reach (cs : List (Script Env)) : ∀ {x y : Phase × St Val Env}, Reach P x.1 x.2 → run P cs x = some y → Reach P y.1 y.2 := by
  induction cs with
  | nil => intro x y hx h; simp [run] at h; subst h; exact hx
  | cons c cs ih =>
    intro x y hx h
    simp only [run, Option.bind_eq_some_iff] at h
    obtain ⟨z, hz, h⟩ := h
    refine ih ?_ h
    unfold runOne at hz
    split at hz
    · exact drive_reach P hx hz
    · exact autoSteps_reach P _ hx hz
    · rw [Option.bind_eq_some_iff] at hz
      obtain ⟨w, hw, hz⟩ := hz
      exact autoMacro_reach P _ (drive_reach P hx hw) hz

/-- To show that some execution has a property, run one. -/
theorem exists_run (cs : List (Script Env)) (vars : Nat → Val) (env : Env) {α : Type} (f : Phase × St Val Env → α) (a : α)
    (h : (run P cs (.idle, init vars env)).map f = some a) : ∃ ph s, Reach P ph s ∧ f (ph, s) = a := by
  rw [Option.map_eq_some_iff] at h
  obtain ⟨⟨ph, s⟩, h1, h2⟩ := h
  exact ⟨ph, s, run_reach P cs (.init vars env) h1, h2⟩


/-! ## A plan for examples

A list (0) with children: an assignment `x0 := 7` with mutex 0 (1), another assignment `x1 := x0` with mutex 0 (2), a command
(3) and an update (4). The environment is a natural number. -/

def demo : Plan Int Nat where
  node := fun
    | 0 => { type := .list, children := [1, 2, 3, 4], rhs := fun _ => 0, rep := some fun _ => some false }
    | 1 => { type := .assignment, anc := [0], mutexes := [0], dest := 0, rhs := fun _ => 7, priority := 1,
             rep := some fun _ => some false }
    | 2 => { type := .assignment, anc := [0], mutexes := [0], dest := 1, rhs := fun o => o.vars 0 + 1, priority := 1,
             inv := some fun o => some (o.env != 5), rep := some fun _ => some false }
    | 3 => { type := .command, anc := [0], rhs := fun o => o.vars 1, rep := some fun _ => some false,
             handleKnown := fun o => some (o.env != 0), exit := some fun o => some (o.env == 5), abortDone := fun o => some (o.env == 6) }
    | 4 => { type := .update, anc := [0], rhs := fun o => o.vars 0, rep := some fun _ => some false }
    | _ => { type := .empty, rhs := fun _ => 0 }
  wake := fun _ _ => [0, 1, 2, 3, 4]

end Verif.Exec
