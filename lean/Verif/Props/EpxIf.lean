import Verif.Props.EpxSeq
import Verif.Epx.If
/-
C119: If with a single condition.
-/
set_option autoImplicit false
set_option linter.unusedSimpArgs false
namespace Verif.Props.Epx
open Verif.Node Verif.Exec Verif.Epx Verif.Props.Sync

variable {Val Env : Type} {P : Plan Val Env}

theorem ifStart_true {test : Obs Val Env → Option Bool} {own : UCond Val Env} {o : Obs Val Env}
    (h : ∀ f, ifStart test own = some f → f o = some true) : test o = some true := by
  cases own with
  | none => exact h _ rfl
  | some c => exact (and3_true (h _ rfl)).1

theorem or3_left {a b : Option Bool} (h : a = some true) : or3 a b = some true := by subst h; rcases b with _ | _ | _ <;> rfl

theorem ifSkip_true {untest : Obs Val Env → Option Bool} {own : UCond Val Env} {o : Obs Val Env} (h : untest o = some true) :
    Says (ifSkip untest own) o (some true) := by
  cases own with
  | none => exact ⟨_, rfl, h⟩
  | some c => exact ⟨_, rfl, or3_left h⟩

/-! ## C119 -/

/-- C119: in every execution, the Then part of an If starts, or has its PreCondition checked, only when the condition is true; the Else part only when it is false. -/
theorem C119_condition (hN : Notifies P) (hA : PlanTree P) {ph : Phase} {s : St Val Env} (h : ReachN P ph s) {p : NodeId} {d : NodeDef Val Env}
    {cond : Obs Val Env → Option Bool} {a b : NodeId × NodeDef Val Env} :
    (Contains P (ifThen p d cond a) ∨ Contains P (ifThenElse p d cond a b) →
      ∀ x o, .trans a.1 .waiting x o ∈ s.log → x = .executing ∨ x = .iterationEnded → cond o = some true) ∧
    (Contains P (ifThenElse p d cond a b) →
      ∀ x o, .trans b.1 .waiting x o ∈ s.log → x = .executing ∨ x = .iterationEnded → cond o = some false) := by
  refine ⟨fun hc x o he hx => ?_, fun hc x o he hx => ?_⟩
  · have hd : P.node a.1 = thenNode cond a.2 := hc.elim (fun hc => hc (a.1, thenNode cond a.2) (by simp [ifThen])) fun hc => hc (a.1, thenNode cond a.2) (by simp [ifThenElse])
    have := (start_event hN hA h he hx).2.2.2
    rw [hd] at this
    exact ifStart_true this
  · have hd : P.node b.1 = elseNode cond b.2 := hc (b.1, elseNode cond b.2) (by simp [ifThenElse])
    have := (start_event hN hA h he hx).2.2.2
    rw [hd] at this
    have := ifStart_true this
    revert this
    rcases cond o with _ | _ | _ <;> simp [not3]

theorem if_exclusive {p : NodeId} {d : NodeDef Val Env} {cond : Obs Val Env → Option Bool} {a b : NodeId × NodeDef Val Env}
    (hc : Contains P (ifThenElse p d cond a b)) : Exclusive P a.1 b.1 ∧ Exclusive P b.1 a.1 := by
  have h1 : P.node a.1 = thenNode cond a.2 := hc (a.1, thenNode cond a.2) (by simp [ifThenElse])
  have h2 : P.node b.1 = elseNode cond b.2 := hc (b.1, elseNode cond b.2) (by simp [ifThenElse])
  refine ⟨⟨fun o h => ?_⟩, ⟨fun o h => ?_⟩⟩
  · have := h.2.2.2
    rw [h1] at this; rw [h2]
    exact ifSkip_true (ifStart_true this)
  · have := h.2.2.2
    rw [h2] at this; rw [h1]
    exact ifSkip_true (ifStart_true this)

/-- C119: in one execution of an If that began with none of its parts going on, at most one of the two parts runs: when one part starts, or has its PreCondition
checked, the other has not done so. -/
theorem C119_never_both (hN : Notifies P) (hA : PlanTree P) {ph : Phase} {s : St Val Env} (h : ReachN P ph s) {p : NodeId} {d : NodeDef Val Env}
    {cond : Obs Val Env → Option Bool} {a b : NodeId × NodeDef Val Env} (hc : Contains P (ifThenElse p d cond a b)) {L1 m y o}
    (he : During p [a.1, b.1] s.log L1 m .waiting y o) (hy : y = .executing ∨ y = .iterationEnded) :
    (m = a.1 → ¬ Started b.1 L1) ∧ (m = b.1 → ¬ Started a.1 L1) := by
  have hch : (P.node p).children = [a.1, b.1] := by rw [hc (p, _) (by unfold ifThenElse; exact List.mem_cons_self)]
  have hk : ∀ k ∈ [a.1, b.1], k ∈ (P.node p).children := by rw [hch]; exact fun _ h => h
  obtain ⟨hab, hba⟩ := if_exclusive hc
  obtain ⟨t, B, B', h2, h3, h4, h5, h6⟩ := h.during hN hA (U := fun _ => True) he (fun _ _ _ _ _ => trivial)
  have key : ∀ x z, x ∈ [a.1, b.1] → z ∈ [a.1, b.1] → Exclusive P x z → Exclusive P z x → m = x → ¬ Started z L1 := by
    rintro x z hx hz hxz hzx rfl ⟨y', o', g1, g2⟩
    have hmay : MayStart P o m := by
      obtain ⟨_, d, hd, e⟩ := h2.moved (k := m) (by rw [← h4, ← h3]; exact fun e => h5 e.symm)
      exact mayStart_of_executing h3.symm hd (by rw [e, ← h4]; exact hy)
    rcases h6 with ⟨_, h7, _⟩ | ⟨L', h7, _, h8⟩
    · rcases h7 m hx with e | e <;> rw [← h3] at e <;> cases e
    · obtain ⟨i1, i2⟩ := Since.oneOf hA (hk m hx) (hk z hz) hxz hzx hk hx hz h7
      rcases h8 z _ _ _ g1 hz (by simp) (by simp) with g | ⟨rfl, e1, e2⟩
      · have := (i2.2 (.inl ⟨y', o', g, g2⟩)).1
        rw [show (picture o m).1 = o.st m from rfl, ← h3] at this; cases this
      · have hmz : MayStart P o' z := by
          have hne : (t z).1 ≠ o'.st z := by rw [← e2, ← e1]; rcases g2 with g2 | g2 <;> rw [g2] <;> simp
          obtain ⟨_, d, hd, e⟩ := h2.moved hne
          exact mayStart_of_executing e1.symm hd (by rw [e, ← e2]; exact g2)
        exact hmz.2.2.1 (hxz.skip o' hmay)
  exact ⟨key a.1 b.1 (by simp) (by simp) hab hba, key b.1 a.1 (by simp) (by simp) hba hab⟩

/-- C119: exactly one part runs. In an execution of an If that began with none of its parts going on, whose parts have no Start, Skip or Exit condition of their own and
wait for no mutex or variable, and in which no transition was made while the parts were told to stop: once both parts are FINISHED, exactly one of them has started
or had its PreCondition checked. -/
theorem C119_exactly_one (hN : Notifies P) (hA : PlanTree P) {ph : Phase} {s : St Val Env} (h : ReachN P ph s) (hp : ph ≠ .trans) {p : NodeId}
    {d : NodeDef Val Env} {cond : Obs Val Env → Option Bool} {a b : NodeId × NodeDef Val Env} (hc : Contains P (ifThenElse p d cond a b))
    (hown : ∀ x ∈ [a, b], x.2.start = none ∧ x.2.skip = none ∧ x.2.exit = none ∧ acquiresResources P x.1 = false) {L1}
    (he : Ongoing p [a.1, b.1] s.log L1) (hstop : ∀ n x y o', .trans n x y o' ∈ L1 → ¬ ToldToStop P o' a.1)
    (hfin : nodeFinished a.1 s.obs = some true ∧ nodeFinished b.1 s.obs = some true) :
    (Started a.1 L1 ∧ ¬ Started b.1 L1) ∨ (Started b.1 L1 ∧ ¬ Started a.1 L1) := by
  have hch : (P.node p).children = [a.1, b.1] := by rw [hc (p, _) (by unfold ifThenElse; exact List.mem_cons_self)]
  have hk : ∀ k ∈ [a.1, b.1], k ∈ (P.node p).children := by rw [hch]; exact fun _ h => h
  have h1 : P.node a.1 = thenNode cond a.2 := hc (a.1, thenNode cond a.2) (by simp [ifThenElse])
  have h2 : P.node b.1 = elseNode cond b.2 := hc (b.1, elseNode cond b.2) (by simp [ifThenElse])
  obtain ⟨oa1, oa2, oa3, oa4⟩ := hown a (by simp)
  obtain ⟨ob1, ob2, ob3, ob4⟩ := hown b (by simp)
  have hO : Opposite P cond a.1 b.1 := by
    constructor <;> first | (rw [h1]; simp [thenNode, ifStart, ifSkip, oa1, oa2, oa3]; done) | (rw [h2]; simp [elseNode, ifStart, ifSkip, ob1, ob2, ob3]; done) | exact oa4 | exact ob4
  obtain ⟨hab, hba⟩ := if_exclusive hc
  obtain ⟨L', B, i1, i2, i3⟩ := h.sinceNow hN hA hp (U := fun o => ¬ ToldToStop P o a.1) he hstop
  have hone := Since.oneOf hA (hk a.1 (by simp)) (hk b.1 (by simp)) hab hba hk (by simp) (by simp) i1
  have fa : (picture s.obs a.1).1 = .finished := nodeFinished_iff.1 hfin.1
  have fb : (picture s.obs b.1).1 = .finished := nodeFinished_iff.1 hfin.2
  have back : ∀ z ∈ [a.1, b.1], Started z L1 → Started z L' := by
    rintro z hz ⟨y, o, g1, g2⟩
    exact ⟨y, o, i3 z _ _ _ g1 hz (by simp) (by simp), g2⟩
  rcases Since.branch hA (hk a.1 (by simp)) (hk b.1 (by simp)) hO hk (by simp) (by simp) i1 with ⟨g, _⟩ | ⟨g, _⟩ | ⟨g, _⟩ | ⟨g, _⟩
  · rw [fa] at g; cases g
  · rw [fa] at g; cases g
  · exact .inl ⟨g.mono i2, fun hb => (hone.1.2 (.inl g)).2 (back _ (by simp) hb)⟩
  · exact .inr ⟨g.mono i2, fun hb => (hone.2.2 (.inl g)).2 (back _ (by simp) hb)⟩

/-- C119: an If does not get stuck when its condition is known. When nothing is left to check, a part without Start condition of its own that waits for no mutex or
variable is WAITING only if the condition is unknown. -/
theorem C119_waits_for_unknown (hN : Notifies P) (hA : PlanTree P) {s : St Val Env} (h : ReachN P .idle s) (hr : s.cand = []) {p : NodeId} {d : NodeDef Val Env}
    {cond : Obs Val Env → Option Bool} {a b : NodeId × NodeDef Val Env} (hc : Contains P (ifThen p d cond a) ∨ Contains P (ifThenElse p d cond a b)) :
    (a.2.start = none → acquiresResources P a.1 = false → nodeWaiting a.1 s.obs = some true → cond s.obs = none) ∧
    (Contains P (ifThenElse p d cond a b) → b.2.start = none → acquiresResources P b.1 = false → nodeWaiting b.1 s.obs = some true → cond s.obs = none) := by
  have h1 : P.node a.1 = thenNode cond a.2 := hc.elim (fun hc => hc (a.1, thenNode cond a.2) (by simp [ifThen])) fun hc => hc (a.1, thenNode cond a.2) (by simp [ifThenElse])
  have key : ∀ z, (P.node z).anc ≠ [] → acquiresResources P z = false → nodeWaiting z s.obs = some true → ∀ test untest : Obs Val Env → Option Bool, ∀ own : UCond Val Env,
      (P.node z).start = some test → (P.node z).skip = ifSkip untest own → test s.obs ≠ some true ∧ untest s.obs ≠ some true := by
    intro z hz hres hw test untest own hst hsk
    have hw : s.obs.st z = .waiting := by simpa [nodeWaiting] using hw
    have := at_rest hN hA h hr (n := z) (fun e => absurd e hz) (fun _ => hres)
    rcases decide_waiting (P := P) (o := s.obs) hw with ⟨_, g⟩ | ⟨_, _, g3, ⟨⟨f, g1, g2⟩, _⟩ | ⟨_, ⟨_, g⟩ | ⟨_, g⟩⟩⟩
    · rw [g] at this; cases this
    · rw [hst] at g1; cases g1
      exact ⟨g2, fun hu => g3 (by rw [hsk]; exact ifSkip_true hu)⟩
    · rw [g] at this; cases this
    · rw [g] at this; cases this
  refine ⟨fun g1 g2 g3 => ?_, fun hc g1 g2 g3 => ?_⟩
  · have hanc : (P.node a.1).anc = p :: (P.node p).anc := hA.child p a.1 (by
      rcases hc with hc | hc
      · rw [hc (p, _) (by unfold ifThen; exact List.mem_cons_self)]; simp
      · rw [hc (p, _) (by unfold ifThenElse; exact List.mem_cons_self)]; simp)
    have := key a.1 (by rw [hanc]; simp) g2 g3 cond (fun o => not3 (cond o)) a.2.skip (by rw [h1]; simp [thenNode, ifStart, g1]) (by rw [h1]; rfl)
    revert this
    rcases cond s.obs with _ | _ | _ <;> simp [not3]
  · have hanc : (P.node b.1).anc = p :: (P.node p).anc := hA.child p b.1 (by
      rw [hc (p, _) (by unfold ifThenElse; exact List.mem_cons_self)]; simp)
    have h2 : P.node b.1 = elseNode cond b.2 := hc (b.1, elseNode cond b.2) (by simp [ifThenElse])
    have := key b.1 (by rw [hanc]; simp) g2 g3 (fun o => not3 (cond o)) cond b.2.skip (by rw [h2]; simp [elseNode, ifStart, g1]) (by rw [h2]; rfl)
    revert this
    rcases cond s.obs with _ | _ | _ <;> simp [not3]

/-! ## An If -/

set_option maxRecDepth 10000

/-- An If (0) with Then (1) and Else (2): the condition is unknown if env is 0, true if env is 1, else false. -/
def either : Block Int Nat := ifThenElse 0 (plain []) (fun o => if o.env = 0 then none else some (o.env == 1)) (1, plain [0]) (2, plain [0])

theorem either_contains : Contains (planOf either) either := planOf_contains (by decide) fun _ h => h

/-- The hypotheses of `C119_waits_for_unknown` are met while env is 0. -/
example : ∃ s, ReachN (planOf either) .idle s ∧ s.cand = [] ∧ nodeWaiting 1 s.obs = some true ∧ nodeWaiting 2 s.obs = some true := by
  obtain ⟨ph, s, h, hf⟩ := exists_runN (planOf_good either) [.cmd (.ext 0 [0, 1, 2]), .macroStep] rfl (fun _ => 0) 0
    (fun x => (x.1, x.2.cand, nodeWaiting 1 x.2.obs, nodeWaiting 2 x.2.obs)) (.idle, [], some true, some true) rfl
  simp only [Prod.mk.injEq] at hf
  obtain ⟨rfl, h1, h2, h3⟩ := hf
  exact ⟨s, h, h1, h2, h3⟩

/-- The hypotheses of `C119_condition` and `C119_never_both` are met when the Then part starts. -/
example : ∃ s, ReachN (planOf either) .idle s ∧ ∃ L1 o, During 0 [1, 2] s.log L1 1 .waiting .executing o ∧ ¬ Started 2 L1 := by
  obtain ⟨ph, s, h, hf⟩ := exists_runN (planOf_good either)
    [.cmd (.ext 0 [0, 1, 2]), .macroStep, .cmd (.ext 1 [0, 1, 2]), .macroStep] rfl (fun _ => 0) 0
    (fun x => (x.1, duringCheck 0 [1, 2] 1 .waiting .executing 1 4 x.2.log)) (.idle, true) rfl
  simp only [Prod.mk.injEq] at hf
  obtain ⟨rfl, h1⟩ := hf
  obtain ⟨o, ho⟩ := duringCheck_spec h1
  exact ⟨s, h, _, o, ho, (C119_never_both (planOf_notifies either) (planOf_tree (top := 2) rfl) h either_contains ho (.inl rfl)).1 rfl⟩

/-- The hypotheses of `C119_exactly_one` are met when both parts are FINISHED. -/
example : ∃ s, ReachN (planOf either) .idle s ∧ ∃ L1, Ongoing 0 [1, 2] s.log L1 ∧ Started 1 L1 ∧ ¬ Started 2 L1 := by
  obtain ⟨ph, s, h, hf⟩ := exists_runN (planOf_good either)
    [.cmd (.ext 0 [0, 1, 2]), .macroStep, .cmd (.ext 1 [0, 1, 2]), .macroStep] rfl (fun _ => 0) 0
    (fun x => (x.1, ongoingCheck 0 [1, 2] 1 x.2.log, nodeFinished 1 x.2.obs, nodeFinished 2 x.2.obs, startedCheck 1 (x.2.log.drop 2)))
    (.idle, true, some true, some true, true) rfl
  simp only [Prod.mk.injEq] at hf
  obtain ⟨rfl, h1, h2, h3, h4⟩ := hf
  have ho := ongoingCheck_spec h1
  have hx := startedCheck_iff.1 h4
  rcases C119_exactly_one (planOf_notifies either) (planOf_tree (top := 2) rfl) h (by simp) either_contains
    (by intro x hx; simp at hx; rcases hx with rfl | rfl <;> exact ⟨rfl, rfl, rfl, rfl⟩) ho
    (fun _ _ _ o _ => no_told (by
      intro a ha
      replace ha : a ∈ [0] := ha
      obtain rfl : a = 0 := by simpa using ha
      exact ⟨rfl, rfl, rfl⟩) o) ⟨h2, h3⟩ with ⟨g1, g2⟩ | ⟨_, g2⟩
  · exact ⟨s, h, _, ho, g1, g2⟩
  · exact absurd hx g2

/-- An If like `either`, but the Then action has a StartCondition of its own: env is 3. -/
def neither : Block Int Nat := ifThenElse 0 (plain []) (fun o => if o.env = 0 then none else some (o.env == 1))
  (1, { plain [0] with start := some fun o => some (o.env == 3) }) (2, plain [0])

/-- C119: without the hypothesis that the parts have no StartCondition of their own, `C119_exactly_one` is false: the condition is true, so the Else part is skipped, and then false before the
Then action's own StartCondition is true, so the Then part is skipped as well. The If Succeeds although neither part has run. (The two parts look at the condition separately, and the Then
part looks again and again while it waits, `if-then-else.xsl:76-176`.) -/
theorem C119_own_start_refuted : Notifies (planOf neither) ∧ PlanTree (planOf neither) ∧ Contains (planOf neither) neither ∧ ∃ s, ReachN (planOf neither) .idle s ∧
    s.cand = [] ∧ nodeSucceeded 0 s.obs = some true ∧ ¬ Started 1 s.log ∧ ¬ Started 2 s.log := by
  refine ⟨planOf_notifies neither, planOf_tree (top := 2) rfl, planOf_contains (by decide) fun _ h => h, ?_⟩
  obtain ⟨ph, s, h, hf⟩ := exists_runN (planOf_good neither)
    [.cmd (.ext 0 [0, 1, 2]), .macroStep, .cmd (.ext 1 [0, 1, 2]), .macroStep, .cmd (.ext 2 [0, 1, 2]), .macroStep] rfl (fun _ => 0) 0
    (fun x => (x.1, x.2.cand, nodeSucceeded 0 x.2.obs, startedCheck 1 x.2.log, startedCheck 2 x.2.log)) (.idle, [], some true, false, false) rfl
  simp only [Prod.mk.injEq] at hf
  obtain ⟨rfl, h1, h2, h3, h4⟩ := hf
  exact ⟨s, h, h1, h2, fun g => (by rw [startedCheck_iff.2 g] at h3; cases h3), fun g => (by rw [startedCheck_iff.2 g] at h4; cases h4)⟩

end Verif.Props.Epx
