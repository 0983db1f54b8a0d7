import Verif.Epx.WaitModel
import Verif.Lookup.Monotone
import Verif.Props.Lookup
import Verif.Props.EpxLoop
/-
C133: Wait.
-/
set_option autoImplicit false
set_option linter.unusedSimpArgs false
namespace Verif.Props.Epx
open Verif.Node Verif.Exec Verif.Epx Verif.Props.Sync
open Verif.Lookup (Cfg Sys Reach step Ev.forward MT Later)

variable {Val Env : Type} {P : Plan Val Env}

/-- The lookups after a history in which the values of state `T` never go back. -/
inductive Forward (C : Cfg) (T : Nat) : Sys → Prop
  | init {s} : Verif.Lookup.Init s → Forward C T s
  | step {s} (e : Verif.Lookup.Ev) : Forward C T s → e.forward T s → Forward C T (step C s e)

theorem Forward.reach {C : Cfg} {T : Nat} {s : Sys} (h : Forward C T s) : Reach C s := by
  induction h with
  | init h => exact .init h
  | step e _ _ ih => exact .step e ih

theorem Forward.mt {C : Cfg} {T : Nat} {s : Sys} (h : Forward C T s) : ∀ j, MT T s j := by
  induction h with
  | init h => exact fun j => Verif.Lookup.mt_of_none (h.obj j).2.2.2.2.1
  | step e hr hw ih => exact Verif.Lookup.step_mt C hr.reach.inv e hw ih

/-- Lookup `i` is an active LookupOnChange of the time `T`, a Real, with tolerance `tol`, and `now` is the time. -/
structure TimeLookup (C : Cfg) (T i : Nat) (s : Sys) (tol now : Int) : Prop where
  history : Forward C T s
  real : C.kind T = .real
  active : (s.obj i).active = true
  onChange : (s.obj i).onChange = true
  name : (s.obj i).name = some T
  tol : (s.obj i).tol = some tol
  now : s.truth T = some now

/-- C133: what a LookupOnChange of the time reports is known, not in the future, and less than the tolerance in the past. -/
theorem C133_report {C : Cfg} {T i : Nat} {s : Sys} {tol now : Int} (h : TimeLookup C T i s tol now) :
    ∃ c, s.value i = some c ∧ c ≤ now ∧ (c = now ∨ now < c + tol.natAbs) := by
  have hr := h.history.reach
  have h1 := Verif.Lookup.c42_real hr i T h.active h.onChange h.name h.real
  rw [h.now, h.tol] at h1
  obtain ⟨c, hc, hd⟩ := h1
  have O := hr.inv.ok i
  obtain ⟨_, he, _, _⟩ := O.act h.active
  have he := he.trans h.name
  have hle : c ≤ now := by
    have hv := hc
    have hn := h.now
    unfold Sys.truth at hn
    unfold Sys.value at hv
    dsimp only at hv
    rw [h.active, he] at hv
    simp only at hv
    cases hval : (s.entry T).value with
    | none => rw [hval] at hv; cases hv
    | some w =>
      rw [hval] at hv hn
      simp only [h.onChange, if_true] at hv
      have hw : w = some now := hn
      cases hk : (s.obj i).cached with
      | none => rw [hk] at hv; rw [hw] at hv; cases hv; omega
      | some k =>
        rw [hk] at hv
        have hv : k = some c := hv
        subst hv
        exact h.history.mt i c now he hk (by rw [hval, hw])
  refine ⟨c, hc, hle, ?_⟩
  rcases hd with e | e
  · exact .inl e
  · right; omega

/-- What an Empty node in EXECUTING does. -/
theorem empty_executing {o : Obs Val Env} {n : NodeId} (ht : (P.node n).type = .empty) (hs : o.st n = .executing) :
    ((isT (conds P o n).ancExit = true ∨ Says (P.node n).exit o (some true) ∨ isF (conds P o n).ancInv = true ∨ Says (P.node n).inv o (some false)) ∧
      ∃ d, decideNext P o n = some d) ∨
    (¬ Says (P.node n).exit o (some true) ∧ ¬ Says (P.node n).inv o (some false) ∧
      ((notT (conds P o n).endc = false ∧ ∃ d, decideNext P o n = some d ∧ d.state = .iterationEnded) ∨ (notT (conds P o n).endc = true ∧ decideNext P o n = none))) := by
  rw [← isT_says, ← isF_says]
  have h1 : evalC (P.node n).exit o = (conds P o n).exit := rfl
  have h2 : evalC (P.node n).inv o = (conds P o n).inv := rfl
  rw [h1, h2]
  unfold decideNext
  rw [hs, ht]
  simp only [getDest, fromExecuting, abnormal]
  generalize conds P o n = c
  cases isT c.ancExit <;> cases isT c.exit <;> cases isF c.ancInv <;> cases isF c.inv <;> cases notT c.endc <;> simp [endIteration]
  split <;> rfl

theorem waitOver_true {r u s : Option Int} : waitOver r u s = some true ↔ ∃ t x y, r = some t ∧ u = some x ∧ s = some y ∧ y + x ≤ t := by
  cases r <;> cases u <;> cases s <;> simp [waitOver]
  omega

section
variable {n : NodeId} {d : NodeDef Val Env} {look : Env → Sys} {i : Nat} {units start : Obs Val Env → Option Int}

theorem wait_endc (hc : Contains P [(n, waitNode d look i units start)]) {o : Obs Val Env} :
    notT (conds P o n).endc = false ↔ Says d.endc o (some true) ∨ waitOver ((look o.env).value i) (units o) (start o) = some true := by
  have hn : P.node n = waitNode d look i units start := hc _ List.mem_cons_self
  have e1 : (P.node n).type = .empty := by rw [hn]; rfl
  have e2 : (P.node n).endc = waitEnd d.endc fun o => waitOver ((look o.env).value i) (units o) (start o) := by rw [hn]; rfl
  simp only [conds, e1, e2, waitEnd, notT, Says]
  cases d.endc with
  | none =>
    simp only
    rcases hw : waitOver ((look o.env).value i) (units o) (start o) with _ | _ | _ <;> simp [evalC, hw]
  | some c =>
    simp only
    rcases hw : waitOver ((look o.env).value i) (units o) (start o) with _ | _ | _ <;> rcases hd : c o with _ | _ | _ <;> simp [evalC, or3, hw, hd]

/-- C133: a Wait does not end early. If it leaves EXECUTING, it is told to stop, or the author's Exit, Invariant or EndCondition says so, or the time is at least that of its start plus the units. -/
theorem C133_not_early (hN : Notifies P) (hA : PlanTree P) {ph : Phase} {s : St Val Env} (hr : ReachN P ph s) (hc : Contains P [(n, waitNode d look i units start)]) {x o}
    (he : .trans n .executing x o ∈ s.log) {C : Cfg} {T : Nat} {tol now : Int} (ht : TimeLookup C T i (look o.env) tol now) :
    ToldToStop P o n ∨ Says d.exit o (some true) ∨ Says d.inv o (some false) ∨ Says d.endc o (some true) ∨
      ∃ u t0, units o = some u ∧ start o = some t0 ∧ t0 + u ≤ now := by
  obtain ⟨h1, e, h2, rfl⟩ := event_decided hN hA hr he
  have hn : P.node n = waitNode d look i units start := hc _ List.mem_cons_self
  rcases empty_executing (P := P) (by rw [hn]; rfl) h1 with ⟨g, _⟩ | ⟨_, _, ⟨g, _⟩ | ⟨_, g⟩⟩
  · rcases g with g | g | g | g
    · exact .inl (told_iff.2 (.inl g))
    · rw [hn] at g; exact .inr (.inl g)
    · exact .inl (told_iff.2 (.inr (.inl g)))
    · rw [hn] at g; exact .inr (.inr (.inl g))
  · rcases (wait_endc hc).1 g with g | g
    · exact .inr (.inr (.inr (.inl g)))
    · obtain ⟨t, u, t0, k1, k2, k3, k4⟩ := waitOver_true.1 g
      obtain ⟨c, hc1, hc2, _⟩ := C133_report ht
      rw [k1] at hc1
      cases hc1
      exact .inr (.inr (.inr (.inr ⟨u, t0, k2, k3, by omega⟩)))
  · rw [h2] at g; cases g

/-- C133: a Wait does not go on for ever. When nothing is left to check and it is still EXECUTING, the time is less than that of its start, plus the units, plus the tolerance (and the author's EndCondition is
not true). -/
theorem C133_ends (hN : Notifies P) (hA : PlanTree P) {s : St Val Env} (hr : ReachN P .idle s) (hq : s.cand = []) (hc : Contains P [(n, waitNode d look i units start)]) (hex : s.st n = .executing) :
    ¬ Says d.endc s.obs (some true) ∧ ∀ (C : Cfg) (T : Nat) (tol now u t0 : Int), TimeLookup C T i (look s.obs.env) tol now → units s.obs = some u → start s.obs = some t0 →
      now < t0 + u + tol.natAbs ∨ now < t0 + u := by
  have hd := at_rest hN hA hr hq (n := n) (fun _ => by rw [hex]; simp) (fun e => by rw [hex] at e; cases e)
  have hex : s.obs.st n = .executing := hex
  have hn : P.node n = waitNode d look i units start := hc _ List.mem_cons_self
  have hno : notT (conds P s.obs n).endc = true := by
    rcases empty_executing (P := P) (by rw [hn]; rfl) hex with ⟨_, e, g⟩ | ⟨_, _, ⟨_, e, g, _⟩ | ⟨g, _⟩⟩
    · rw [g] at hd; cases hd
    · rw [g] at hd; cases hd
    · exact g
  have hno : ¬ (Says d.endc s.obs (some true) ∨ waitOver ((look s.obs.env).value i) (units s.obs) (start s.obs) = some true) := by
    intro g
    rw [(wait_endc hc).2 g] at hno
    cases hno
  refine ⟨fun g => hno (.inl g), fun C T tol now u t0 ht h1 h2 => ?_⟩
  obtain ⟨c, hc1, hc2, hc3⟩ := C133_report ht
  have : ¬ t0 + u ≤ c := fun g => hno (.inr (waitOver_true.2 ⟨c, u, t0, hc1, h1, h2, g⟩))
  rcases hc3 with rfl | hc3
  · right; omega
  · left; omega

end

/-! ### Examples -/

set_option maxRecDepth 10000

/-- Every state is Real; `eps` is the margin of rounding of `Lookup.cc:691-695`. -/
def waitCfg (eps : Int) : Cfg := ⟨fun _ => .real, fun _ => eps⟩

/-- What happens to the lookups: lookup 0 is activated at time 100, then the time is 104, 107 and 111. -/
def waitEvents : List Verif.Lookup.Ev := [.activate 0 (.known 100), .give 0 (.known 104), .give 0 (.known 107), .give 0 (.known 111)]

/-- The lookups when env is `k`: after the first `k` events. -/
def waitLook (eps : Int) (k : Nat) : Sys := Verif.Lookup.runs (waitCfg eps) Verif.Lookup.exSys (waitEvents.take k)

/-- `Wait 5` (node 0) that started at 100, with the default tolerance (5). (`wait.xsl:34-103`.) -/
def nap (eps : Int) : Block Int Nat := [(0, waitNode (plain []) (waitLook eps) 0 (fun _ => some 5) fun _ => some 100)]

theorem nap_contains (eps : Int) : Contains (planOf (nap eps)) (nap eps) := planOf_contains (by simp [nap]) fun _ h => h

theorem nap_tree (eps : Int) : PlanTree (planOf (nap eps)) := planOf_tree (top := 0) rfl

/-- The time when env is `k`. -/
def timeAt : Nat → Int
  | 1 => 100
  | 2 => 104
  | 3 => 107
  | _ => 111

theorem later_known {s : Sys} {T : Nat} {x v : Int} (h : (s.entry T).value = some (some x)) (hl : x ≤ v) : Later T s (.known v) := by
  intro a b ha hb
  rw [h] at ha
  cases ha; cases hb; exact hl

theorem waitLook_time (eps : Int) (he : eps = 0 ∨ eps = 2) (k : Nat) (hk : k < 5) (hp : 0 < k) :
    TimeLookup (waitCfg eps) 0 0 (waitLook eps k) 5 (timeAt k) := by
  have v : ∀ k, 0 < k → k < 5 → ((waitLook eps k).entry 0).value = some (some (timeAt k)) := by
    intro k h1 h2
    match k with
    | 0 => omega
    | 1 => rcases he with rfl | rfl <;> rfl
    | 2 => rcases he with rfl | rfl <;> rfl
    | 3 => rcases he with rfl | rfl <;> rfl
    | 4 => rcases he with rfl | rfl <;> rfl
    | k + 5 => omega
  have h0 : Forward (waitCfg eps) 0 (waitLook eps 0) := .init Verif.Lookup.exInit
  have h1 : Forward (waitCfg eps) 0 (waitLook eps 1) := by
    refine .step (.activate 0 (.known 100)) h0 ?_
    intro _ a b ha hb
    exact absurd ha (by rcases he with rfl | rfl <;> exact (by intro h; cases h))
  have h2 : Forward (waitCfg eps) 0 (waitLook eps 2) := .step (.give 0 (.known 104)) h1 fun _ => later_known (v 1 (by omega) (by omega)) (by decide)
  have h3 : Forward (waitCfg eps) 0 (waitLook eps 3) := .step (.give 0 (.known 107)) h2 fun _ => later_known (v 2 (by omega) (by omega)) (by decide)
  have h4 : Forward (waitCfg eps) 0 (waitLook eps 4) := .step (.give 0 (.known 111)) h3 fun _ => later_known (v 3 (by omega) (by omega)) (by decide)
  have ht : ∀ k, 0 < k → k < 5 → (waitLook eps k).truth 0 = some (timeAt k) := fun k h1 h2 => by unfold Sys.truth; rw [v k h1 h2]; rfl
  have ho : ∀ k, 0 < k → k < 5 → ((waitLook eps k).obj 0).active = true ∧ ((waitLook eps k).obj 0).onChange = true ∧ ((waitLook eps k).obj 0).name = some 0 ∧ ((waitLook eps k).obj 0).tol = some 5 := by
    intro k h1 h2
    match k with
    | 0 => omega
    | 1 => rcases he with rfl | rfl <;> decide
    | 2 => rcases he with rfl | rfl <;> decide
    | 3 => rcases he with rfl | rfl <;> decide
    | 4 => rcases he with rfl | rfl <;> decide
    | k + 5 => omega
  have hf : Forward (waitCfg eps) 0 (waitLook eps k) := by
    match k with
    | 0 => exact h0
    | 1 => exact h1
    | 2 => exact h2
    | 3 => exact h3
    | 4 => exact h4
    | k + 5 => omega
  obtain ⟨g1, g2, g3, g4⟩ := ho k hp hk
  exact ⟨hf, rfl, g1, g2, g3, g4, ht k hp hk⟩

/-- C133: a Wait may be over only when nearly twice the units have passed: a report of the time within the margin of rounding before the end makes the lookup change, which does not end the Wait, and then the
lookup does not change again until another tolerance has passed. -/
theorem C133_doubled_refuted : Notifies (planOf (nap 2)) ∧ PlanTree (planOf (nap 2)) ∧ Contains (planOf (nap 2)) (nap 2) ∧ ∃ s, ReachN (planOf (nap 2)) .idle s ∧ s.cand = [] ∧ s.st 0 = .executing ∧
    TimeLookup (waitCfg 2) 0 0 (waitLook 2 s.obs.env) 5 107 ∧ (100 : Int) + 5 ≤ 107 := by
  refine ⟨planOf_notifies _, nap_tree _, nap_contains _, ?_⟩
  obtain ⟨ph, s, h, hf⟩ := exists_runN (planOf_good (nap 2)) [.cmd (.ext 1 [0]), .macroStep, .cmd (.ext 2 [0]), .macroStep, .cmd (.ext 3 [0]), .macroStep] rfl (fun _ => 0) 0
    (fun x => (x.1, x.2.cand, x.2.st 0, x.2.obs.env)) (.idle, [], .executing, 3) rfl
  simp only [Prod.mk.injEq] at hf
  obtain ⟨rfl, h1, h2, h3⟩ := hf
  refine ⟨s, h, h1, h2, ?_, by omega⟩
  rw [h3]
  exact waitLook_time 2 (.inr rfl) 3 (by omega) (by omega)

/-- The hypotheses of `C133_ends` and `C133_not_early` are met: the Wait goes on at 104 and ends at 107 (no margin), and has a successor (the margin is 2) at 111. -/
example : (∃ s, ReachN (planOf (nap 0)) .idle s ∧ s.cand = [] ∧ s.st 0 = .executing ∧ TimeLookup (waitCfg 0) 0 0 (waitLook 0 s.obs.env) 5 104) ∧
    (∃ s o, ReachN (planOf (nap 0)) .idle s ∧ .trans 0 .executing .iterationEnded o ∈ s.log ∧ nodeSucceeded 0 s.obs = some true) ∧
    ∃ s o, ReachN (planOf (nap 2)) .idle s ∧ .trans 0 .executing .iterationEnded o ∈ s.log ∧ nodeSucceeded 0 s.obs = some true := by
  refine ⟨?_, ?_, ?_⟩
  · obtain ⟨ph, s, h, hf⟩ := exists_runN (planOf_good (nap 0)) [.cmd (.ext 1 [0]), .macroStep, .cmd (.ext 2 [0]), .macroStep] rfl (fun _ => 0) 0
      (fun x => (x.1, x.2.cand, x.2.st 0, x.2.obs.env)) (.idle, [], .executing, 2) rfl
    simp only [Prod.mk.injEq] at hf
    obtain ⟨rfl, h1, h2, h3⟩ := hf
    refine ⟨s, h, h1, h2, ?_⟩
    rw [h3]
    exact waitLook_time 0 (.inl rfl) 2 (by omega) (by omega)
  · obtain ⟨ph, s, h, hf⟩ := exists_runN (planOf_good (nap 0)) [.cmd (.ext 1 [0]), .macroStep, .cmd (.ext 2 [0]), .macroStep, .cmd (.ext 3 [0]), .macroStep] rfl (fun _ => 0) 0
      (fun x => (x.1, x.2.log.any (goesAt 0 .executing .iterationEnded), nodeSucceeded 0 x.2.obs)) (.idle, true, some true) rfl
    simp only [Prod.mk.injEq] at hf
    obtain ⟨rfl, h1, h2⟩ := hf
    obtain ⟨o, ho⟩ := goes_mem h1
    exact ⟨s, o, h, ho, h2⟩
  · obtain ⟨ph, s, h, hf⟩ := exists_runN (planOf_good (nap 2)) [.cmd (.ext 1 [0]), .macroStep, .cmd (.ext 2 [0]), .macroStep, .cmd (.ext 3 [0]), .macroStep, .cmd (.ext 4 [0]), .macroStep] rfl (fun _ => 0) 0
      (fun x => (x.1, x.2.log.any (goesAt 0 .executing .iterationEnded), nodeSucceeded 0 x.2.obs)) (.idle, true, some true) rfl
    simp only [Prod.mk.injEq] at hf
    obtain ⟨rfl, h1, h2⟩ := hf
    obtain ⟨o, ho⟩ := goes_mem h1
    exact ⟨s, o, h, ho, h2⟩

end Verif.Props.Epx
