import Verif.Epx.If
/-
Test nodes, and nodes that start depending on their results.
-/
set_option autoImplicit false
set_option linter.unusedSimpArgs false
namespace Verif.Epx
open Verif.Node Verif.Exec Verif.Props.Sync

variable {Val Env : Type} {P : Plan Val Env}

/-- A test node: Empty, with the condition as PostCondition. -/
structure IsTest (P : Plan Val Env) (p k : NodeId) (cond : Obs Val Env → Option Bool) : Prop where
  child : k ∈ (P.node p).children
  type : (P.node k).type = .empty
  post : (P.node k).post = some cond
  pre : (P.node k).pre = none
  exit : (P.node k).exit = none
  inv : (P.node k).inv = none
  endc : (P.node k).endc = none
  rep : (P.node k).rep = none
  res : (P.node k).mutexes = []

/-- What a test node does in a step. -/
theorem IsTest.step (hA : PlanTree P) {p k : NodeId} {cond : Obs Val Env → Option Bool} (h : IsTest P p k cond) {o : Obs Val Env} {B B'} {t : Picture}
    (hs : SyncStep P o B t B') (hp : o.st p ≠ .waiting) (hst : StateExists .empty (o.st k)) :
    ((o.st k = .inactive ∨ o.st k = .waiting) ∧ ((t k).1 = .inactive ∨ (t k).1 = .waiting) ∧ (o.st p = .executing → (t k).1 = .waiting)) ∨
    ((o.st k = .inactive ∨ o.st k = .waiting) ∧ (t k).1 = .finished ∧ (t k).2.1 = .skipped ∧
      (o.st p = .finished ∨ ToldToStop P o k ∨ (o.st k = .waiting ∧ Says (P.node k).skip o (some true)))) ∨
    (o.st k = .waiting ∧ (t k).1 = .executing ∧ MayStart P o k) ∨
    (o.st k = .executing ∧ (t k).1 = .iterationEnded ∧
      ((cond o = some true ∧ (t k).2.1 = .success) ∨ (cond o ≠ some true ∧ (t k).2.1 = .failure ∧ (t k).2.2 = .postFailed))) ∨
    (o.st k = .executing ∧ (t k).1 = .finished ∧ (t k).2.1 ≠ .success ∧ (t k).2.2 ≠ .postFailed ∧ ToldToStop P o k) ∨
    (o.st k = .iterationEnded ∧ (t k).1 = .finished ∧
      (t k = (.finished, o.out k, o.fail k) ∨ ((t k).2.1 ≠ .success ∧ (t k).2.2 ≠ .postFailed ∧ ToldToStop P o k))) ∨
    (o.st k = .finished ∧ t k = picture o k) := by
  have hanc := hA.child p k h.child
  cases hk : o.st k with
  | inactive =>
    rcases step_inactive hs hanc hk with ⟨g1, g2, g3⟩ | ⟨g1, g, g2, g3⟩ | ⟨g1, _, g2⟩ | ⟨g1, _, g2⟩
    · exact .inr (.inl ⟨.inl rfl, g2, g3, .inl g1⟩)
    · exact .inr (.inl ⟨.inl rfl, g2, g3, .inr (.inl g)⟩)
    · exact .inl ⟨.inl rfl, .inr g2, fun _ => g2⟩
    · exact .inl ⟨.inl rfl, .inl (by rw [g2]; exact hk), fun e => absurd e g1⟩
  | waiting =>
    have hw := step_waiting hs hanc hk
    rcases hw with ⟨g, _⟩ | ⟨g, _⟩ | ⟨g1, g2, _, g3⟩ | ⟨g1, _, g2⟩
    · exact .inl ⟨.inr rfl, .inr (by rw [g]; exact hk), fun _ => by rw [g]; exact hk⟩
    · exact .inl ⟨.inr rfl, .inr (by rw [g]; exact hk), fun _ => by rw [g]; exact hk⟩
    · refine .inr (.inl ⟨.inr rfl, g1, g2, ?_⟩)
      rw [h.exit] at g3
      rcases g3 with g3 | ⟨_, g3, _⟩ | g3
      · exact .inr (.inl g3)
      · cases g3
      · exact .inr (.inr ⟨rfl, g3⟩)
    · refine .inr (.inr (.inl ⟨rfl, ?_, g2⟩))
      obtain ⟨_, d, hd, e⟩ := hs.moved (k := k) (by rcases g1 with e | e <;> rw [e, hk] <;> simp)
      rcases decide_waiting (P := P) (o := o) hk with ⟨_, x⟩ | ⟨_, _, _, ⟨_, x⟩ | ⟨_, ⟨⟨f, x, _⟩, _⟩ | ⟨_, x⟩⟩⟩
      · rw [x] at hd; cases hd; rw [← e] at g1; rcases g1 with g1 | g1 <;> cases g1
      · rw [x] at hd; cases hd
      · rw [h.pre] at x; cases x
      · rw [x] at hd; cases hd; exact e.symm
  | executing =>
    have hn := step_next hs hanc (by rw [hk]; simp)
    have h1 : (conds P o k).exit = none := by show evalC (P.node k).exit o = none; rw [h.exit]; rfl
    have h2 : (conds P o k).inv = none := by show evalC (P.node k).inv o = none; rw [h.inv]; rfl
    have h3 : notT (conds P o k).endc = false := by simp [conds, h.endc, h.type]; rfl
    have h4 : (conds P o k).post = some (cond o) := by show evalC (P.node k).post o = _; rw [h.post]; rfl
    have htold : ToldToStop P o k ↔ _ := told_iff
    unfold synchronousNext decideNext at hn
    rw [hk, h.type] at hn
    simp only [getDest, fromExecuting, h1, h2, h3, endIteration, h4] at hn
    cases ha : isT (conds P o k).ancExit
    · cases hb : isF (conds P o k).ancInv
      · right; right; right; left
        rw [ha, hb] at hn
        simp only [isT, isF, notT] at hn
        rcases hc : cond o with _ | _ | _ <;> rw [hc] at hn <;> simp at hn <;> simp [hn]
      · right; right; right; right; left
        rw [ha, hb] at hn
        simp [isT] at hn
        simp [hn, htold, hb]
    · right; right; right; right; left
      rw [ha] at hn
      simp [isT] at hn
      simp [hn, htold, ha]
  | finishing => rw [hk] at hst; exact hst.elim
  | failing => rw [hk] at hst; exact hst.elim
  | iterationEnded =>
    right; right; right; right; right; left
    have hn := step_next hs hanc (by rw [hk]; simp)
    have htold : ToldToStop P o k ↔ _ := told_iff
    have h5 : (conds P o k).rep = none := by show evalC (P.node k).rep o = none; rw [h.rep]; rfl
    unfold synchronousNext decideNext at hn
    rw [hk] at hn
    simp only [getDest, fromIterationEnded, h5] at hn
    cases ha : isT (conds P o k).ancExit
    · cases hb : isF (conds P o k).ancInv
      · rw [ha, hb] at hn
        cases hc : isT (conds P o k).ancEnd <;> rw [hc] at hn <;> simp [isT] at hn <;> simp [hn]
      · rw [ha, hb] at hn
        simp at hn
        simp [hn, htold, hb]
    · rw [ha] at hn
      simp at hn
      simp [hn, htold, ha]
  | finished =>
    right; right; right; right; right; right
    exact ⟨rfl, step_finished hs hanc hk hp⟩

/-- A node that is active has started. -/
theorem Since.active_started (hA : PlanTree P) {p c : NodeId} {kids : List NodeId} (hk : ∀ k ∈ kids, k ∈ (P.node p).children) (hc : c ∈ kids)
    {U : Obs Val Env → Prop} {L : List (Event Val Env)} {t : Picture} {B} (h : Since P p U (Fresh P p kids) L t B) :
    (Active (t c).1 → Started c L) ∧ ∀ x y o, .trans c x y o ∈ L → Active x → Started c L := by
  have hanc := hA.child p c (hk c hc)
  induction h with
  | base h => exact ⟨fun ha => absurd ((h.start hA hk).2 c hc).1 ha.1, fun x y o hx => by cases hx⟩
  | @step L o B t B' ms hprev hs h1 h2 hm ih =>
    have hmono : Started c L → Started c (L ++ report o t ms) := fun h => h.mono fun e he => List.mem_append.2 (.inl he)
    refine ⟨fun ha => ?_, fun x y o' hx ha => ?_⟩
    · rcases step_active hs hanc ha with g | ⟨g1, g2⟩
      · exact hmono (ih.1 g)
      · exact started_report (hm c) g1 g2
    · rcases List.mem_append.1 hx with hx | hx
      · exact hmono (ih.2 x y o' hx ha)
      · obtain ⟨_, e, _, _⟩ := mem_report.1 hx
        exact hmono (ih.1 (by rw [show (picture o c).1 = o.st c from rfl, ← e]; exact ha))

/-- What is known of a test node. -/
structure TestInv (k : NodeId) (cond : Obs Val Env → Option Bool) (L : List (Event Val Env)) (t : Picture) : Prop where
  early : (t k).1 = .inactive ∨ (t k).1 = .waiting ∨ (t k).1 = .executing → ∀ o, .trans k .executing .iterationEnded o ∉ L
  succ : (t k).2.1 = .success → Verdict k cond L true
  fail : (t k).2.2 = .postFailed → Verdict k cond L false

theorem Verdict.append {k : NodeId} {cond : Obs Val Env → Option Bool} {L : List (Event Val Env)} {v : Bool} (h : Verdict k cond L v) {o : Obs Val Env} {t : Picture}
    {ms : List NodeId} (hI : TestInv k cond L (picture o)) : Verdict k cond (L ++ report o t ms) v := by
  refine ⟨?_, fun o' ho' => ?_⟩
  · obtain ⟨o', ho'⟩ := h.1; exact ⟨o', List.mem_append.2 (.inl ho')⟩
  · rcases List.mem_append.1 ho' with ho' | ho'
    · exact h.2 o' ho'
    · obtain ⟨_, e, _, _⟩ := mem_report.1 ho'
      obtain ⟨o'', ho''⟩ := h.1
      exact absurd ho'' (hI.early (.inr (.inr e.symm)) o'')

theorem Since.test (hA : PlanTree P) {p k : NodeId} {kids : List NodeId} (hk : ∀ k ∈ kids, k ∈ (P.node p).children) (hkk : k ∈ kids)
    {cond : Obs Val Env → Option Bool} (hT : IsTest P p k cond)
    {U : Obs Val Env → Prop} {L : List (Event Val Env)} {t : Picture} {B} (h : Since P p U (Fresh P p kids) L t B) : TestInv k cond L t := by
  induction h with
  | base h =>
    have hf := Since.fits (Since.base (U := U) h) k
    rw [((h.start hA hk).2 k hkk).1] at hf
    refine ⟨fun _ o hx => (by cases hx), fun e => ?_, fun e => ?_⟩
    · have := hf.2.1; rw [e] at this; cases this
    · have := hf.2.2; rw [e] at this; cases this
  | @step L o B t B' ms hprev hs h1 h2 hm ih =>
    have hbeg := Since.begun hA hk hprev
    have hfit := Since.fits hprev k
    have hfit' := Since.fits (Since.step ms hprev hs h1 h2 hm) k
    have hnew : o.st k ≠ .executing → ∀ o', .trans k .executing .iterationEnded o' ∈ L ++ report o t ms → .trans k .executing .iterationEnded o' ∈ L := by
      intro hne o' hx
      rcases List.mem_append.1 hx with hx | hx
      · exact hx
      · exact absurd (mem_report.1 hx).2.1.symm hne
    have hst : StateExists .empty (o.st k) := by have := hfit.1; rw [hT.type] at this; exact this
    rcases hT.step hA hs hbeg.1 hst with ⟨g1, g2, _⟩ | ⟨g1, g2, g3, _⟩ | ⟨g1, g2, _⟩ | ⟨g1, g2, g3⟩ | ⟨g1, g2, g3, g4, _⟩ | ⟨g1, g2, g3⟩ | ⟨g1, g2⟩
    · have hc : (t k).2.1 = .none ∧ (t k).2.2 = .none := by have := hfit'.2; rcases g2 with e | e <;> rw [e] at this <;> exact this
      refine ⟨fun _ o' hx => ih.early (g1.elim .inl fun e => .inr (.inl e)) o' (hnew (by rcases g1 with e | e <;> rw [e] <;> simp) o' hx), fun e => ?_, fun e => ?_⟩
      · rw [hc.1] at e; cases e
      · rw [hc.2] at e; cases e
    · refine ⟨fun e => ?_, fun e => ?_, fun e => ?_⟩
      · rw [g2] at e; rcases e with e | e | e <;> cases e
      · rw [g3] at e; cases e
      · have := hfit'.2; rw [g2, g3, e] at this; simp [Consistent] at this
    · have hc : (t k).2.1 = .none ∧ (t k).2.2 = .none := by have := hfit'.2; rw [g2] at this; exact this
      refine ⟨fun _ o' hx => ih.early (.inr (.inl g1)) o' (hnew (by rw [g1]; simp) o' hx), fun e => ?_, fun e => ?_⟩
      · rw [hc.1] at e; cases e
      · rw [hc.2] at e; cases e
    · have hev : .trans k .executing .iterationEnded o ∈ L ++ report o t ms :=
        List.mem_append.2 (.inr (mem_report.2 ⟨(hm k).2 (by rw [g1, g2]; simp), g1.symm, g2.symm, rfl⟩))
      have honly : ∀ o', .trans k .executing .iterationEnded o' ∈ L ++ report o t ms → o' = o := by
        intro o' hx
        rcases List.mem_append.1 hx with hx | hx
        · exact absurd hx (ih.early (.inr (.inr g1)) o')
        · exact (mem_report.1 hx).2.2.2
      refine ⟨fun e => ?_, fun e => ?_, fun e => ?_⟩
      · rw [g2] at e; rcases e with e | e | e <;> cases e
      · refine ⟨⟨o, hev⟩, fun o' hx => ?_⟩
        rw [honly o' hx]
        rcases g3 with ⟨g3, _⟩ | ⟨_, g3, _⟩
        · simp [g3]
        · rw [g3] at e; cases e
      · refine ⟨⟨o, hev⟩, fun o' hx => ?_⟩
        rw [honly o' hx]
        rcases g3 with ⟨_, g3⟩ | ⟨g3, _⟩
        · have := hfit'.2; rw [g2, g3, e] at this; simp [Consistent] at this
        · simp [g3]
    · refine ⟨fun e => ?_, fun e => absurd e g3, fun e => absurd e g4⟩
      rw [g2] at e; rcases e with e | e | e <;> cases e
    · refine ⟨fun e => ?_, fun e => ?_, fun e => ?_⟩
      · rw [g2] at e; rcases e with e | e | e <;> cases e
      · rcases g3 with g3 | ⟨g3, _⟩
        · rw [g3] at e; exact (ih.succ e).append ih
        · exact absurd e g3
      · rcases g3 with g3 | ⟨_, g3, _⟩
        · rw [g3] at e; exact (ih.fail e).append ih
        · exact absurd e g3
    · refine ⟨fun e => ?_, fun e => ?_, fun e => ?_⟩
      · rw [g2, show (picture o k).1 = o.st k from rfl, g1] at e; rcases e with e | e | e <;> cases e
      · rw [g2] at e; exact (ih.succ e).append ih
      · rw [g2] at e; exact (ih.fail e).append ih

/-- Node `c` starts only if test `k` has succeeded (`v`) or its PostCondition has failed (`¬ v`). -/
def DependsOn (P : Plan Val Env) (c k : NodeId) (v : Bool) : Prop :=
  ∀ o, MayStart P o c → if v then o.out k = .success else o.fail k = .postFailed

/-- A node that depends on a test has started only if the test's condition was true, or was not. -/
theorem Since.after (hA : PlanTree P) {p k c : NodeId} {kids : List NodeId} (hk : ∀ k ∈ kids, k ∈ (P.node p).children) (hkk : k ∈ kids)
    {cond : Obs Val Env → Option Bool} (hT : IsTest P p k cond) {v : Bool} (hD : DependsOn P c k v)
    {U : Obs Val Env → Prop} {L : List (Event Val Env)} {t : Picture} {B} (h : Since P p U (Fresh P p kids) L t B) : Started c L → Verdict k cond L v := by
  induction h with
  | base h => rintro ⟨_, _, hx, _⟩; cases hx
  | @step L o B t B' ms hprev hs h1 h2 hm ih =>
    intro hst
    have hI := Since.test hA hk hkk hT hprev
    refine Verdict.append ?_ hI
    rcases started_append hst with g | ⟨g1, g2⟩
    · exact ih g
    · obtain ⟨_, d, hd, e⟩ := hs.moved (k := c) (by rw [g1]; rcases g2 with g2 | g2 <;> rw [g2] <;> simp)
      have := hD o (mayStart_of_executing g1 hd (by rw [e]; exact g2))
      cases v with
      | true => exact hI.succ this
      | false => exact hI.fail this

/-- A test that has started and was not told to stop is under way or has a result. -/
theorem Since.tested (hA : PlanTree P) {p k : NodeId} {kids : List NodeId} (hk : ∀ k ∈ kids, k ∈ (P.node p).children) (hkk : k ∈ kids)
    {cond : Obs Val Env → Option Bool} (hT : IsTest P p k cond) {L : List (Event Val Env)} {t : Picture} {B}
    (h : Since P p (fun o => ¬ ToldToStop P o k) (Fresh P p kids) L t B) :
    Started k L → (t k).1 = .executing ∨ (((t k).1 = .iterationEnded ∨ (t k).1 = .finished) ∧ ((t k).2.1 = .success ∨ (t k).2.2 = .postFailed)) := by
  induction h with
  | base h => rintro ⟨_, _, hx, _⟩; cases hx
  | @step L o B t B' ms hprev hs h1 h2 hm ih =>
    intro hst
    have hbeg := Since.begun hA hk hprev
    have hfit := Since.fits hprev k
    have hst0 : StateExists .empty (o.st k) := by have := hfit.1; rw [hT.type] at this; exact this
    have told : (t k).1 ≠ o.st k → ¬ ToldToStop P o k := fun hne => h2 fun e => by have := (hm k).2 hne; rw [e] at this; cases this
    have hold : Started k L ∨ (o.st k = .waiting ∧ (t k).1 ≠ .inactive ∧ (t k).1 ≠ .waiting ∧ (t k).1 ≠ .finished) := by
      rcases started_append hst with g | ⟨g1, g2⟩
      · exact .inl g
      · exact .inr ⟨g1, by rcases g2 with e | e <;> rw [e] <;> simp, by rcases g2 with e | e <;> rw [e] <;> simp, by rcases g2 with e | e <;> rw [e] <;> simp⟩
    have nold : o.st k = .inactive ∨ o.st k = .waiting → Started k L → False := by
      intro g1 g
      rcases ih g with g' | ⟨g', _⟩
      · rw [show (picture o k).1 = o.st k from rfl] at g'; rcases g1 with e | e <;> rw [e] at g' <;> cases g'
      · rw [show (picture o k).1 = o.st k from rfl] at g'; rcases g1 with e | e <;> rw [e] at g' <;> rcases g' with g' | g' <;> cases g'
    rcases hT.step hA hs hbeg.1 hst0 with ⟨g1, g2, _⟩ | ⟨g1, g2, g3, _⟩ | ⟨g1, g2, _⟩ | ⟨g1, g2, g3⟩ | ⟨g1, g2, g3, g4, g5⟩ | ⟨g1, g2, g3⟩ | ⟨g1, g2⟩
    · rcases hold with g | ⟨_, g3, g4, _⟩
      · exact (nold g1 g).elim
      · rcases g2 with e | e
        · exact absurd e g3
        · exact absurd e g4
    · rcases hold with g | ⟨_, _, _, g4⟩
      · exact (nold g1 g).elim
      · exact absurd g2 g4
    · exact .inl g2
    · exact .inr ⟨.inl g2, g3.elim (fun g => .inl g.2) fun g => .inr g.2.2⟩
    · exact absurd g5 (told (by rw [g1, g2]; simp))
    · right
      refine ⟨.inr g2, ?_⟩
      rcases g3 with g3 | ⟨_, _, g3⟩
      · rcases hold with g | ⟨g, _⟩
        · rcases ih g with g' | ⟨_, g'⟩
          · rw [show (picture o k).1 = o.st k from rfl, g1] at g'; cases g'
          · rw [g3]; exact g'
        · rw [g1] at g; cases g
      · exact absurd g3 (told (by rw [g1, g2]; simp))
    · rcases hold with g | ⟨g, _⟩
      · rw [g2]; exact ih g
      · rw [g1] at g; cases g

/-- A child that is FINISHED has started or was skipped because of the result of test `k`. -/
theorem Since.skipped (hA : PlanTree P) {p c k : NodeId} {kids : List NodeId} (hk : ∀ k ∈ kids, k ∈ (P.node p).children) (hc : c ∈ kids) (hkk : k ∈ kids)
    {cond : Obs Val Env → Option Bool} (hT : IsTest P p k cond) (hexit : (P.node c).exit = none) {Q : Outcome → Failure → Prop}
    (hQ0 : ¬ Q .none .none) (hQ : ∀ o, Says (P.node c).skip o (some true) → Q (o.out k) (o.fail k))
    {L : List (Event Val Env)} {t : Picture} {B} (h : Since P p (fun o => ¬ ToldToStop P o c) (Fresh P p kids) L t B) :
    (t c).1 = .finished → Started c L ∨ Q (t k).2.1 (t k).2.2 := by
  have hanc := hA.child p c (hk c hc)
  have hanck := hA.child p k (hk k hkk)
  induction h with
  | base h => intro e; rw [((h.start hA hk).2 c hc).1] at e; cases e
  | @step L o B t B' ms hprev hs h1 h2 hm ih =>
    intro hfin
    have hbeg := Since.begun hA hk hprev
    have hact := Since.active_started hA hk hc hprev
    have hfit := Since.fits hprev k
    have hst0 : StateExists .empty (o.st k) := by have := hfit.1; rw [hT.type] at this; exact this
    have told : ∀ z, (P.node z).anc = p :: (P.node p).anc → (t z).1 ≠ o.st z → ¬ ToldToStop P o z := fun z hz hne => by
      rw [told_sibling (c' := c) (by rw [hz, hanc])]
      exact h2 fun e => by have := (hm z).2 hne; rw [e] at this; cases this
    have hmono : Started c L → Started c (L ++ report o t ms) := fun h => h.mono fun e he => List.mem_append.2 (.inl he)
    -- the result of `k` stays
    have keep : Q (o.out k) (o.fail k) → Q (t k).2.1 (t k).2.2 := by
      intro hq
      have hcons := hfit.2
      have hnn : o.st k = .inactive ∨ o.st k = .waiting ∨ o.st k = .executing → False := by
        intro e
        have : o.out k = .none ∧ o.fail k = .none := by
          rw [show (picture o k).1 = o.st k from rfl] at hcons
          rcases e with e | e | e <;> rw [e] at hcons <;> exact hcons
        rw [this.1, this.2] at hq; exact hQ0 hq
      rcases hT.step hA hs hbeg.1 hst0 with ⟨g, _⟩ | ⟨g, _⟩ | ⟨g, _⟩ | ⟨g, _⟩ | ⟨g, _⟩ | ⟨g1, g2, g3⟩ | ⟨_, g⟩
      · exact (hnn (g.elim .inl fun e => .inr (.inl e))).elim
      · exact (hnn (g.elim .inl fun e => .inr (.inl e))).elim
      · exact (hnn (.inr (.inl g))).elim
      · exact (hnn (.inr (.inr g))).elim
      · exact (hnn (.inr (.inr g))).elim
      · rcases g3 with g3 | ⟨_, _, g3⟩
        · rw [g3]; exact hq
        · exact absurd g3 (told k hanck (by rw [g1, g2]; simp))
      · rw [g]; exact hq
    cases hst : o.st c with
    | inactive =>
      rcases step_inactive hs hanc hst with ⟨g, _⟩ | ⟨_, g, g', _⟩ | ⟨_, _, g⟩ | ⟨_, _, g⟩
      · rcases hbeg.2 with g' | g'
        · have := g'.1; rw [show (picture o p).1 = o.st p from rfl, g] at this; cases this
        · exact absurd hst (g' c hc)
      · exact absurd g (told c hanc (by rw [g', hst]; simp))
      · rw [hfin] at g; cases g
      · rw [g, show (picture o c).1 = o.st c from rfl, hst] at hfin; cases hfin
    | waiting =>
      rcases step_waiting hs hanc hst with ⟨g, _⟩ | ⟨g, _⟩ | ⟨g, _, _, g' | g' | g'⟩ | ⟨g, _⟩
      · rw [g, show (picture o c).1 = o.st c from rfl, hst] at hfin; cases hfin
      · rw [g, show (picture o c).1 = o.st c from rfl, hst] at hfin; cases hfin
      · exact absurd g' (told c hanc (by rw [g, hst]; simp))
      · rw [hexit] at g'; obtain ⟨f, g', _⟩ := g'; cases g'
      · exact .inr (keep (hQ o g'))
      · rw [hfin] at g; rcases g with g | g <;> cases g
    | finished =>
      rcases ih hst with g | g
      · exact .inl (hmono g)
      · exact .inr (keep g)
    | _ => exact .inl (hmono (hact.1 (by rw [show (picture o c).1 = o.st c from rfl, hst]; simp [Active])))

end Verif.Epx
