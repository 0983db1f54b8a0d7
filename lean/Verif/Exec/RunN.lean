import Verif.Exec.Run
import Verif.Exec.Quiet
/-
The driver, for executions in which the environment notifies every node concerned.
-/
namespace Verif.Exec
open Verif.Node

variable {Val Env : Type} (P : Plan Val Env)

/-- External changes allowed in a script. -/
def goodCmd (good : Env → List NodeId → Bool) : Cmd Env → Bool
  | .ext e ns => good e ns
  | _ => true

def goodScript (good : Env → List NodeId → Bool) : Script Env → Bool
  | .cmd c => goodCmd good c
  | _ => true

variable {P} {good : Env → List NodeId → Bool}
  (hgood : ∀ (s : St Val Env) e ns, good e ns = true → ∀ k, decideNext P { s.obs with env := e } k ≠ decideNext P s.obs k → k ∈ ns)

include hgood

theorem drive_reachN {c : Cmd Env} {x y : Phase × St Val Env} (hx : ReachN P x.1 x.2) (hc : goodCmd good c = true)
    (h : drive P c x = some y) : ReachN P y.1 y.2 := by
  have hs := drive_step P h
  obtain ⟨ph, s⟩ := x
  cases c with
  | ext e ns =>
    unfold drive at h
    cases ph <;> simp at h
    subst h; exact ReachN.ext (P := P) e ns hx (hgood s e ns hc)
  | ackUpd n =>
    unfold drive at h
    cases ph <;> simp at h
    subst h; exact ReachN.ackUpd n hx
  | deletePlans =>
    unfold drive at h
    cases ph <;> simp at h
    subst h; exact ReachN.deletePlans hx
  | _ =>
    refine ReachN.step (ph := ph) (s := s) hx hs ?_
    unfold drive at h
    cases ph <;> simp at h <;> (try split at h) <;> simp_all [Prod.ext_iff] <;> (try rw [← h.2.1]) <;> (try rw [← h.1]) <;> simp

omit hgood in
theorem autoCmd_good (x : Phase × St Val Env) : goodCmd good (autoCmd P x) = true := by
  unfold autoCmd
  repeat' split
  all_goals rfl

theorem autoSteps_reachN (k : Nat) : ∀ {x y : Phase × St Val Env}, ReachN P x.1 x.2 → autoSteps P k x = some y → ReachN P y.1 y.2 := by
  induction k with
  | zero => intro x y hx h; simp [autoSteps] at h; subst h; exact hx
  | succ k ih =>
    intro x y hx h
    simp only [autoSteps, Option.bind_eq_some_iff] at h
    obtain ⟨z, hz, h⟩ := h
    exact ih (drive_reachN hgood hx (autoCmd_good x) hz) h

theorem autoMacro_reachN (k : Nat) : ∀ {x y : Phase × St Val Env}, ReachN P x.1 x.2 → autoMacro P k x = some y → ReachN P y.1 y.2 := by
  induction k with
  | zero => intro x y hx h; simp [autoMacro] at h
  | succ k ih =>
    intro x y hx h
    simp only [autoMacro] at h
    split at h
    · cases h; exact hx
    · rw [Option.bind_eq_some_iff] at h
      obtain ⟨z, hz, h⟩ := h
      exact ih (drive_reachN hgood hx (autoCmd_good x) hz) h

theorem run_reachN (cs : List (Script Env)) (hcs : cs.all (goodScript good) = true) :
    ∀ {x y : Phase × St Val Env}, ReachN P x.1 x.2 → run P cs x = some y → ReachN P y.1 y.2 := by
  induction cs with
  | nil => intro x y hx h; simp [run] at h; subst h; exact hx
  | cons c cs ih =>
    intro x y hx h
    simp only [List.all_cons, Bool.and_eq_true] at hcs
    simp only [run, Option.bind_eq_some_iff] at h
    obtain ⟨z, hz, h⟩ := h
    refine ih hcs.2 ?_ h
    unfold runOne at hz
    split at hz
    · exact drive_reachN hgood hx hcs.1 hz
    · exact autoSteps_reachN hgood _ hx hz
    · rw [Option.bind_eq_some_iff] at hz
      obtain ⟨w, hw, hz⟩ := hz
      exact autoMacro_reachN hgood _ (drive_reachN hgood (c := .begin) hx rfl hw) hz

theorem exists_runN (cs : List (Script Env)) (hcs : cs.all (goodScript good) = true) (vars : Nat → Val) (env : Env) {α : Type}
    (f : Phase × St Val Env → α) (a : α)
    (h : (run P cs (.idle, init vars env)).map f = some a) : ∃ ph s, ReachN P ph s ∧ f (ph, s) = a := by
  rw [Option.map_eq_some_iff] at h
  obtain ⟨⟨ph, s⟩, h1, h2⟩ := h
  exact ⟨ph, s, run_reachN hgood cs hcs (.init vars env) h1, h2⟩

/-! ## Micro steps, for examples -/

section
variable (P)

def checkFuel : Nat → St Val Env → Option (St Val Env)
  | 0, _ => none
  | k + 1, s => match s.cand with
    | [] => some s
    | n :: rest => checkFuel k (checkOne P n { s with cand := rest })

def transFuel : Nat → St Val Env → Option (St Val Env)
  | 0, _ => none
  | k + 1, s => match s.change with
    | [] => some s
    | n :: rest => transFuel k (transOne P n { s with change := rest })

/-- A whole micro step. -/
def microFuel (k : Nat) (s : St Val Env) : Option (St Val Env) :=
  (checkFuel P k s).bind fun t =>
    let r := resolveFuel P t.pending.length t.pending t
    match r.change with
    | [] => none
    | _ => transFuel P k r

end

omit hgood in
theorem checkFuel_spec (k : Nat) : ∀ {s0 s t : St Val Env}, CheckPhase P s0 s → checkFuel P k s = some t → CheckPhase P s0 t ∧ t.cand = [] := by
  induction k with
  | zero => intro s0 s t _ h; cases h
  | succ k ih =>
    intro s0 s t hs h
    simp only [checkFuel] at h
    split at h
    · rename_i hc; cases h; exact ⟨hs, hc⟩
    · rename_i hc; exact ih (hs.step hc) h

omit hgood in
theorem transFuel_spec (k : Nat) : ∀ {s0 s t : St Val Env}, TransPhase P s0 s → transFuel P k s = some t → TransPhase P s0 t ∧ t.change = [] := by
  induction k with
  | zero => intro s0 s t _ h; cases h
  | succ k ih =>
    intro s0 s t hs h
    simp only [transFuel] at h
    split at h
    · rename_i hc; cases h; exact ⟨hs, hc⟩
    · rename_i hc; exact ih (hs.step hc) h

omit hgood in
theorem microFuel_spec {k : Nat} {s t : St Val Env} (h : microFuel P k s = some t) : MicroStep P s t := by
  simp only [microFuel, Option.bind_eq_some_iff] at h
  obtain ⟨u, h1, h2⟩ := h
  obtain ⟨g1, g2⟩ := checkFuel_spec k (.refl s) h1
  rw [resolveFuel_eq P _ u.pending u (Nat.le_refl _)] at h2
  split at h2
  · cases h2
  · rename_i hne
    obtain ⟨g3, g4⟩ := transFuel_spec k (.refl _) h2
    exact ⟨u, g1, g2, fun e => hne e, g3, g4⟩

end Verif.Exec
