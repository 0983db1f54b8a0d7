import Verif.Epx.Model
import Verif.Exec.Span
import Verif.Exec.ExitSpec
import Verif.Props.Sync
/-
What one synchronous step does to a child of a list.
-/
set_option autoImplicit false
set_option linter.unusedSimpArgs false
namespace Verif.Epx
open Verif.Node Verif.Exec Verif.Props.Sync

variable {Val Env : Type} {P : Plan Val Env}

/-! ## Being told to stop -/

theorem foldr_orC_iff (f : NodeId → Cond) (l : List NodeId) :
    isT (l.foldr (fun a acc => orC (f a) acc) none) = true ↔ ∃ a ∈ l, f a = some (some true) := by
  constructor
  · intro h
    induction l with
    | nil => simp [isT] at h
    | cons x l ih =>
      simp only [List.foldr_cons] at h
      by_cases hx : f x = some (some true)
      · exact ⟨x, by simp, hx⟩
      · have : isT (l.foldr (fun a acc => orC (f a) acc) none) = true := by
          generalize l.foldr (fun a acc => orC (f a) acc) none = y at h
          revert h hx
          rcases f x with _ | _ | _ | _ <;> rcases y with _ | _ | _ | _ <;> simp [orC, or3, isT]
        obtain ⟨a, ha, e⟩ := ih this
        exact ⟨a, by simp [ha], e⟩
  · rintro ⟨a, ha, e⟩; exact foldr_orC f l ha e

theorem foldr_andC_iff (f : NodeId → Cond) (l : List NodeId) :
    isF (l.foldr (fun a acc => andC (f a) acc) none) = true ↔ ∃ a ∈ l, f a = some (some false) := by
  constructor
  · intro h
    induction l with
    | nil => simp [isF] at h
    | cons x l ih =>
      simp only [List.foldr_cons] at h
      by_cases hx : f x = some (some false)
      · exact ⟨x, by simp, hx⟩
      · have : isF (l.foldr (fun a acc => andC (f a) acc) none) = true := by
          generalize l.foldr (fun a acc => andC (f a) acc) none = y at h
          revert h hx
          rcases f x with _ | _ | _ | _ <;> rcases y with _ | _ | _ | _ <;> simp [andC, and3, isF]
        obtain ⟨a, ha, e⟩ := ih this
        exact ⟨a, by simp [ha], e⟩
  · rintro ⟨a, ha, e⟩; exact foldr_andC f l ha e

theorem evalC_some {c : UCond Val Env} {o : Obs Val Env} {v} : evalC c o = some v ↔ ∃ f, c = some f ∧ f o = v := by
  unfold evalC; cases c <;> simp

theorem told_iff {o : Obs Val Env} {c : NodeId} : ToldToStop P o c ↔
    isT (conds P o c).ancExit = true ∨ isF (conds P o c).ancInv = true ∨ isT (conds P o c).ancEnd = true := by
  show _ ↔ isT (ancExit P o c) = true ∨ isF (ancInv P o c) = true ∨ isT (ancEnd P o c) = true
  unfold ancExit ancInv ancEnd
  rw [foldr_orC_iff, foldr_andC_iff, foldr_orC_iff]
  simp only [evalC_some]
  unfold ToldToStop
  constructor
  · rintro ⟨a, ha, h | h | h⟩
    · exact .inl ⟨a, ha, h⟩
    · exact .inr (.inl ⟨a, ha, h⟩)
    · exact .inr (.inr ⟨a, ha, h⟩)
  · rintro (⟨a, ha, h⟩ | ⟨a, ha, h⟩ | ⟨a, ha, h⟩)
    · exact ⟨a, ha, .inl h⟩
    · exact ⟨a, ha, .inr (.inl h)⟩
    · exact ⟨a, ha, .inr (.inr h)⟩

/-- Children of the same list are told to stop together. -/
theorem told_sibling {o : Obs Val Env} {c c' : NodeId} (h : (P.node c).anc = (P.node c').anc) : ToldToStop P o c ↔ ToldToStop P o c' := by
  unfold ToldToStop; rw [h]

/-! ## The rules -/

open scoped Classical in
theorem decide_inactive {o : Obs Val Env} {c p : NodeId} {l} (hc : (P.node c).anc = p :: l) (hs : o.st c = .inactive) :
    decideNext P o c = if o.st p = .finished then some ⟨.finished, .skipped, .none⟩
      else if o.st p = .executing then (if ToldToStop P o c then some ⟨.finished, .skipped, .none⟩ else some ⟨.waiting, .none, .none⟩) else none := by
  rw [told_iff]
  unfold decideNext parentState
  rw [hs, hc]
  simp only [getDest, List.head?_cons, Option.map_some]
  generalize conds P o c = k
  cases o.st p <;> simp [fromInactive] <;> cases isT k.ancExit <;> cases isF k.ancInv <;> cases isT k.ancEnd <;> simp

theorem decide_finished {o : Obs Val Env} {c p : NodeId} {l} (hc : (P.node c).anc = p :: l) (hs : o.st c = .finished) :
    decideNext P o c = if o.st p = .waiting then some ⟨.inactive, .none, .none⟩ else none := by
  unfold decideNext parentState
  rw [hs, hc]
  simp [getDest, fromFinished]

/-- The node's ExitCondition, SkipCondition, ... has the given value. -/
def Says (c : UCond Val Env) (o : Obs Val Env) (v : Option Bool) : Prop := ∃ f, c = some f ∧ f o = v

theorem isT_says {c : UCond Val Env} {o : Obs Val Env} : isT (evalC c o) = true ↔ Says c o (some true) := by
  unfold isT Says evalC; cases c <;> simp
theorem isF_says {c : UCond Val Env} {o : Obs Val Env} : isF (evalC c o) = true ↔ Says c o (some false) := by
  unfold isF Says evalC; cases c <;> simp
theorem notT_says {c : UCond Val Env} {o : Obs Val Env} : notT (evalC c o) = true ↔ ∃ f, c = some f ∧ f o ≠ some true := by
  unfold notT evalC
  rcases c with _ | f
  · simp
  · simp only [Option.map_some, Option.some.injEq, exists_eq_left']
    rcases f o with _ | _ | _ <;> simp

theorem decide_waiting {o : Obs Val Env} {c : NodeId} (hs : o.st c = .waiting) :
    ((ToldToStop P o c ∨ Says (P.node c).exit o (some true) ∨ Says (P.node c).skip o (some true)) ∧
      decideNext P o c = some ⟨.finished, .skipped, .none⟩) ∨
    (¬ ToldToStop P o c ∧ ¬ Says (P.node c).exit o (some true) ∧ ¬ Says (P.node c).skip o (some true) ∧
      (((∃ f, (P.node c).start = some f ∧ f o ≠ some true) ∧ decideNext P o c = none) ∨
       ((∀ f, (P.node c).start = some f → f o = some true) ∧
        (((∃ f, (P.node c).pre = some f ∧ f o ≠ some true) ∧ decideNext P o c = some ⟨.iterationEnded, .failure, .preFailed⟩) ∨
         ((∀ f, (P.node c).pre = some f → f o = some true) ∧ decideNext P o c = some ⟨.executing, .none, .none⟩))))) := by
  rw [told_iff, ← isT_says, ← isT_says]
  have hst : (∃ f, (P.node c).start = some f ∧ f o ≠ some true) ↔ notT (conds P o c).start = true := (notT_says (c := (P.node c).start)).symm
  have hpr : (∃ f, (P.node c).pre = some f ∧ f o ≠ some true) ↔ notT (conds P o c).pre = true := (notT_says (c := (P.node c).pre)).symm
  have hst' : (∀ f, (P.node c).start = some f → f o = some true) ↔ ¬ notT (conds P o c).start = true := by
    rw [← hst]; constructor
    · rintro h ⟨f, e1, e2⟩; exact e2 (h f e1)
    · intro h f e1; exact Decidable.byContradiction fun e2 => h ⟨f, e1, e2⟩
  have hpr' : (∀ f, (P.node c).pre = some f → f o = some true) ↔ ¬ notT (conds P o c).pre = true := by
    rw [← hpr]; constructor
    · rintro h ⟨f, e1, e2⟩; exact e2 (h f e1)
    · intro h f e1; exact Decidable.byContradiction fun e2 => h ⟨f, e1, e2⟩
  rw [hst, hpr, hst', hpr']
  have h1 : evalC (P.node c).exit o = (conds P o c).exit := rfl
  have h2 : evalC (P.node c).skip o = (conds P o c).skip := rfl
  rw [h1, h2]
  unfold decideNext
  rw [hs]
  simp only [getDest]
  generalize conds P o c = k
  unfold fromWaiting
  cases isT k.ancExit <;> cases isT k.exit <;> cases isF k.ancInv <;> cases isT k.ancEnd <;> cases isT k.skip <;> cases notT k.start <;>
    cases notT k.pre <;> simp

theorem abnormal_dest {c : Conds} {d : Dest} (h : abnormal c = some d) : d.state = .failing := by
  unfold abnormal at h
  repeat' split at h
  all_goals cases h
  all_goals rfl

theorem endIteration_dest (c : Conds) : (endIteration c).state = .iterationEnded := by unfold endIteration; split <;> rfl

theorem fromExecuting_dest {t c} {d : Dest} (h : fromExecuting t c = some d) :
    d.state = .failing ∨ d.state = .finished ∨ d.state = .iterationEnded ∨ d.state = .finishing := by
  unfold fromExecuting at h
  cases ha : abnormal c with
  | some d' =>
    have := abnormal_dest ha
    cases t <;> simp only [ha] at h <;> repeat' split at h
    all_goals cases h
    all_goals simp [this, endIteration_dest]
  | none =>
    cases t <;> simp only [ha] at h <;> repeat' split at h
    all_goals cases h
    all_goals simp [endIteration_dest]

theorem fromFinishing_dest {t c} {d : Dest} (h : fromFinishing t c = some d) : d.state = .failing ∨ d.state = .iterationEnded := by
  unfold fromFinishing at h
  cases ha : abnormal c with
  | some d' =>
    have := abnormal_dest ha
    cases t <;> simp only [ha] at h
    all_goals cases h
    all_goals simp [this]
  | none =>
    cases t <;> simp only [ha] at h <;> repeat' split at h
    all_goals cases h
    all_goals simp [endIteration_dest]

theorem getDest_to_waiting {t a par f c} {d : Dest} (h : getDest t a par f c = some d) (hd : d.state = .waiting) :
    a = .inactive ∨ (a = .iterationEnded ∧ isT c.rep = true ∧ isT c.ancExit = false ∧ isF c.ancInv = false ∧ isT c.ancEnd = false) := by
  unfold getDest at h
  cases a with
  | inactive => exact .inl rfl
  | waiting =>
    simp only [fromWaiting] at h
    repeat' split at h
    all_goals first | (cases h; cases hd) | cases h
  | executing => rcases fromExecuting_dest h with e | e | e | e <;> rw [e] at hd <;> cases hd
  | finishing => rcases fromFinishing_dest h with e | e <;> rw [e] at hd <;> cases hd
  | failing =>
    simp only [fromFailing] at h
    repeat' split at h
    all_goals first | (cases h; cases hd) | cases h
  | finished =>
    simp only [fromFinished] at h
    repeat' split at h
    all_goals first | (cases h; cases hd) | cases h
  | iterationEnded =>
    right
    refine ⟨rfl, ?_⟩
    simp only [fromIterationEnded] at h
    repeat' split at h
    all_goals first | (cases h; cases hd) | cases h | skip
    simp_all

theorem getDest_inactive {t a par f c} {d : Dest} (h : getDest t a par f c = some d) (hd : d.state = .inactive) : a = .finished ∧ par = some .waiting := by
  unfold getDest at h
  cases a with
  | inactive =>
    simp only [fromInactive] at h
    repeat' split at h
    all_goals first | (cases h; cases hd) | cases h
  | waiting =>
    simp only [fromWaiting] at h
    repeat' split at h
    all_goals first | (cases h; cases hd) | cases h
  | executing => rcases fromExecuting_dest h with e | e | e | e <;> rw [e] at hd <;> cases hd
  | finishing => rcases fromFinishing_dest h with e | e <;> rw [e] at hd <;> cases hd
  | failing =>
    simp only [fromFailing] at h
    repeat' split at h
    all_goals first | (cases h; cases hd) | cases h
  | finished =>
    simp only [fromFinished] at h
    split at h
    · exact ⟨rfl, by assumption⟩
    · cases h
  | iterationEnded =>
    simp only [fromIterationEnded] at h
    repeat' split at h
    all_goals first | (cases h; cases hd) | cases h

/-! ## One step of a child -/

section step
variable {o : Obs Val Env} {B B' : NodeId → Prop} {t : Picture}

theorem step_next (hs : SyncStep P o B t B') {c p : NodeId} {l} (hc : (P.node c).anc = p :: l) (hw : o.st c ≠ .waiting) :
    t c = synchronousNext P o c := by
  rcases hs.1 c with g | ⟨_, g | ⟨_, g⟩⟩
  · exact g
  · exact absurd (hs.2 c g).2.1 hw
  · rw [hc] at g; cases g

theorem step_finished (hs : SyncStep P o B t B') {c p : NodeId} {l} (hc : (P.node c).anc = p :: l) (hf : o.st c = .finished) (hp : o.st p ≠ .waiting) :
    t c = picture o c := by
  apply hs.stay
  rw [decide_finished hc hf, if_neg hp]

theorem step_reset (hs : SyncStep P o B t B') {c p : NodeId} {l} (hc : (P.node c).anc = p :: l) (hf : o.st c = .finished) (hp : o.st p = .waiting) :
    t c = (.inactive, .none, .none) := by
  rw [step_next hs hc (by rw [hf]; simp)]
  unfold synchronousNext
  rw [decide_finished hc hf, if_pos hp]
  simp [hf]

theorem step_inactive (hs : SyncStep P o B t B') {c p : NodeId} {l} (hc : (P.node c).anc = p :: l) (hf : o.st c = .inactive) :
    (o.st p = .finished ∧ (t c).1 = .finished ∧ (t c).2.1 = .skipped) ∨
    (o.st p = .executing ∧ ToldToStop P o c ∧ (t c).1 = .finished ∧ (t c).2.1 = .skipped) ∨
    (o.st p = .executing ∧ ¬ ToldToStop P o c ∧ (t c).1 = .waiting) ∨
    (o.st p ≠ .executing ∧ o.st p ≠ .finished ∧ t c = picture o c) := by
  have h := step_next hs hc (by rw [hf]; simp)
  unfold synchronousNext at h
  rw [decide_inactive hc hf] at h
  by_cases h1 : o.st p = .finished
  · rw [if_pos h1] at h; left; refine ⟨h1, ?_⟩; rw [h]; exact ⟨rfl, rfl⟩
  · rw [if_neg h1] at h
    by_cases h2 : o.st p = .executing
    · rw [if_pos h2] at h
      by_cases h3 : ToldToStop P o c
      · rw [if_pos h3] at h; right; left; refine ⟨h2, h3, ?_⟩; rw [h]; exact ⟨rfl, rfl⟩
      · rw [if_neg h3] at h; right; right; left; refine ⟨h2, h3, ?_⟩; rw [h]
    · rw [if_neg h2] at h; right; right; right; exact ⟨h2, h1, h⟩

/-- The nodes that are allowed to start: not told to stop, nothing of their own stops or skips them, and their StartCondition is true or absent. -/
def MayStart (P : Plan Val Env) (o : Obs Val Env) (c : NodeId) : Prop :=
  ¬ ToldToStop P o c ∧ ¬ Says (P.node c).exit o (some true) ∧ ¬ Says (P.node c).skip o (some true) ∧ ∀ f, (P.node c).start = some f → f o = some true

theorem mayStart_of_executing {c : NodeId} {d : Dest} (hw : o.st c = .waiting) (hd : decideNext P o c = some d)
    (he : d.state = .executing ∨ d.state = .iterationEnded) : MayStart P o c := by
  rcases decide_waiting (P := P) (o := o) hw with ⟨_, h⟩ | ⟨h1, h2, h3, ⟨_, h⟩ | ⟨h4, _⟩⟩
  · rw [h] at hd; cases hd; rcases he with e | e <;> cases e
  · rw [h] at hd; cases hd
  · exact ⟨h1, h2, h3, h4⟩

/-- What becomes of a WAITING node. -/
theorem step_waiting (hs : SyncStep P o B t B') {c p : NodeId} {l} (hc : (P.node c).anc = p :: l) (hf : o.st c = .waiting) :
    (t c = picture o c ∧ ¬ B' c ∧ ¬ ToldToStop P o c ∧ ¬ Says (P.node c).exit o (some true) ∧ ¬ Says (P.node c).skip o (some true) ∧
      ∃ f, (P.node c).start = some f ∧ f o ≠ some true) ∨
    (t c = picture o c ∧ B' c ∧ acquiresResources P c = true ∧ (MayStart P o c ∨ B c)) ∨
    ((t c).1 = .finished ∧ (t c).2.1 = .skipped ∧ ¬ B' c ∧
      (ToldToStop P o c ∨ Says (P.node c).exit o (some true) ∨ Says (P.node c).skip o (some true))) ∨
    (((t c).1 = .executing ∨ (t c).1 = .iterationEnded) ∧ ¬ B' c ∧ MayStart P o c) := by
  by_cases hb : B' c
  · right; left
    obtain ⟨g1, _, g3, g4⟩ := hs.2 c hb
    refine ⟨g1, hb, g3, ?_⟩
    rcases g4 with ⟨d, g4, g5⟩ | g4
    · exact .inl (mayStart_of_executing hf g4 (.inl g5))
    · exact .inr g4
  · have h : t c = synchronousNext P o c := by
      rcases hs.1 c with g | ⟨_, g | ⟨g, _⟩⟩
      · exact g
      · exact absurd g hb
      · rw [hf] at g; cases g
    have hh := h
    unfold synchronousNext at h
    rcases decide_waiting (P := P) (o := o) hf with ⟨h1, h2⟩ | ⟨h1, h2, h3, ⟨h4, h5⟩ | ⟨h4, ⟨_, h5⟩ | ⟨_, h5⟩⟩⟩
    · rw [h2] at h; right; right; left
      refine ⟨by rw [h], by rw [h]; rfl, hb, h1⟩
    · left; rw [hh, synchronousNext_none h5]; exact ⟨rfl, hb, h1, h2, h3, h4⟩
    · rw [h5] at h; right; right; right; exact ⟨.inr (by rw [h]), hb, h1, h2, h3, h4⟩
    · rw [h5] at h; right; right; right; exact ⟨.inl (by rw [h]), hb, h1, h2, h3, h4⟩

/-- A node becomes INACTIVE only from FINISHED, when its parent is WAITING. -/
theorem step_to_inactive (hs : SyncStep P o B t B') {c p : NodeId} {l} (hc : (P.node c).anc = p :: l) (h : (t c).1 = .inactive) :
    o.st c = .inactive ∨ (o.st c = .finished ∧ o.st p = .waiting) := by
  by_cases hk : (t c).1 = o.st c
  · left; rw [← hk, h]
  · obtain ⟨_, d, hd, he⟩ := hs.moved hk
    obtain ⟨e1, e2⟩ := getDest_inactive hd (he.trans h)
    right; refine ⟨e1, ?_⟩
    unfold parentState at e2; rw [hc] at e2; simpa using e2

/-- A node becomes WAITING only from INACTIVE, or to repeat. -/
theorem step_to_waiting (hs : SyncStep P o B t B') {c : NodeId} (h : (t c).1 = .waiting) :
    o.st c = .waiting ∨ o.st c = .inactive ∨ (o.st c = .iterationEnded ∧ Says (P.node c).rep o (some true)) := by
  by_cases hk : (t c).1 = o.st c
  · left; rw [← hk, h]
  · obtain ⟨_, d, hd, he⟩ := hs.moved hk
    rcases getDest_to_waiting hd (he.trans h) with e | ⟨e, e1, _⟩
    · exact .inr (.inl e)
    · exact .inr (.inr ⟨e, isT_says.1 e1⟩)

/-- A node waiting for a mutex or a variable is WAITING. -/
theorem blocked_waiting {L : List (Event Val Env)} (h : SyncRun P L t B) {c : NodeId} (hb : B c) : (t c).1 = .waiting := by
  cases h with
  | start => cases hb
  | step ms _ hs _ _ => obtain ⟨e1, e2, _⟩ := hs.2 c hb; rw [e1]; exact e2

end step

/-! ## Success -/

/-- Outcome SUCCESS comes from a normal end of an iteration only. -/
theorem getDest_success {t a par f c} {d : Dest} (h : getDest t a par f c = some d) (ho : d.outcome = .success) :
    d.state = .iterationEnded ∧ notT c.post = false ∧
      ((a = .executing ∧ (t = .empty ∨ t = .assignment ∨ t = .update)) ∨ (a = .finishing ∧ (t = .command ∨ t = .list) ∧ isT c.actionComplete = true ∧
        isT c.ancExit = false ∧ isT c.exit = false ∧ isF c.ancInv = false ∧ isF c.inv = false)) := by
  unfold getDest at h
  cases a with
  | inactive =>
    simp only [fromInactive] at h
    repeat' split at h
    all_goals first | (cases h; cases ho) | cases h
  | waiting =>
    simp only [fromWaiting] at h
    repeat' split at h
    all_goals first | (cases h; cases ho) | cases h
  | executing =>
    simp only [fromExecuting] at h
    cases t <;> simp only [abnormal, endIteration] at h
    all_goals (revert h; cases isT c.ancExit <;> cases isT c.exit <;> cases isF c.ancInv <;> cases isF c.inv <;> cases notT c.endc <;>
      cases notT c.post <;> cases isT c.actionComplete <;> simp <;> rintro rfl <;> simp_all)
  | finishing =>
    simp only [fromFinishing] at h
    cases t <;> simp only [abnormal, endIteration] at h
    all_goals (revert h; cases isT c.ancExit <;> cases isT c.exit <;> cases isF c.ancInv <;> cases isF c.inv <;>
      cases notT c.post <;> cases isT c.actionComplete <;> simp <;> rintro rfl <;> simp_all)
  | failing =>
    simp only [fromFailing] at h
    repeat' split at h
    all_goals first | (cases h; cases ho) | cases h
  | finished =>
    simp only [fromFinished] at h
    repeat' split at h
    all_goals first | (cases h; cases ho) | cases h
  | iterationEnded =>
    simp only [fromIterationEnded] at h
    repeat' split at h
    all_goals first | (cases h; cases ho) | cases h

/-- A node has outcome SUCCESS after a step: it ended an iteration normally, or had that outcome before. -/
theorem step_success {o : Obs Val Env} {B B' : NodeId → Prop} {t : Picture} (hs : SyncStep P o B t B') {n : NodeId} (h : (t n).2.1 = .success) :
    (∃ d, decideNext P o n = some d ∧ d.outcome = .success ∧ (t n).1 = .iterationEnded ∧ d.state = (t n).1) ∨
    (o.out n = .success ∧ ((t n).1 = o.st n ∨ (o.st n = .iterationEnded ∧ (t n).1 = .finished) ∨ (o.st n ≠ .iterationEnded ∧ o.st n ≠ .finished))) := by
  rcases hs.cases n with ⟨g, _⟩ | ⟨d, hd, h1, h2⟩
  · right; rw [g] at h ⊢; exact ⟨h, .inl rfl⟩
  · unfold synchronousNext at h2
    rw [hd] at h2
    by_cases ho : d.outcome = .success
    · left; exact ⟨d, hd, ho, by rw [← h1]; exact (getDest_success hd ho).1, h1⟩
    · right
      rw [h2] at h
      simp only at h
      by_cases hn : d.outcome ≠ .none
      · rw [if_pos hn] at h; exact absurd h ho
      · rw [if_neg hn] at h
        by_cases hr : (o.st n = .iterationEnded ∧ d.state = .waiting) ∨ o.st n = .finished
        · rw [if_pos hr] at h; cases h
        · rw [if_neg hr] at h
          refine ⟨h, ?_⟩
          by_cases he : o.st n = .iterationEnded
          · right; left; refine ⟨he, ?_⟩
            rw [← h1]
            have hd' := hd
            unfold decideNext at hd'
            rw [he] at hd'
            simp only [getDest, fromIterationEnded] at hd'
            repeat' split at hd'
            all_goals first | (cases hd'; rfl) | cases hd' | skip
            exact absurd (.inl ⟨he, rfl⟩) hr
          · right; right; exact ⟨he, fun e => hr (.inr e)⟩

theorem _root_.Verif.Exec.SyncRun.succeeded {L : List (Event Val Env)} {t : Picture} {B} (h : SyncRun P L t B) {n : NodeId}
    (h1 : (t n).1 = .iterationEnded ∨ (t n).1 = .finished) (h2 : (t n).2.1 = .success) :
    ∃ L0 a o L1, L = L0 ++ .trans n a .iterationEnded o :: L1 ∧ (∀ b o', .trans n b .iterationEnded o' ∉ L1) ∧
      ∀ f, (P.node n).post = some f → f o = some true := by
  induction h with
  | start => simp at h1
  | @step L o t B B' ms hr hs hnd hm ih =>
    have hok := hr.ok n
    rcases step_success hs h2 with ⟨d, hd, ho, hi, he⟩ | ⟨ho, hcase⟩
    · obtain ⟨e1, e2, e3⟩ := getDest_success hd ho
      have hne : (t n).1 ≠ o.st n := by rw [hi]; rcases e3 with ⟨e, _⟩ | ⟨e, _⟩ <;> rw [e] <;> simp
      obtain ⟨m1, m2, rfl⟩ := List.append_of_mem ((hm n).2 hne)
      refine ⟨L ++ report o t m1, o.st n, o, report o t m2, ?_, ?_, ?_⟩
      · rw [← hi]; simp [report]
      · intro b o' hx
        have := (mem_report.1 hx).1
        have hnd := (List.nodup_append.1 hnd).2.1
        exact (List.nodup_cons.1 hnd).1 this
      · intro f hf
        have hnp : notT (evalC (P.node n).post o) = false := e2
        refine Classical.byContradiction fun hc => ?_
        have := notT_says.2 ⟨f, hf, hc⟩
        rw [this] at hnp; cases hnp
    · have hprev : o.st n = .iterationEnded ∨ o.st n = .finished := by
        rcases hcase with e | ⟨e, _⟩ | ⟨e1, e2⟩
        · rw [← e]; exact h1
        · exact .inl e
        · exfalso
          have : Consistent (o.st n) (o.out n) (o.fail n) := hok.2
          rw [ho] at this
          revert this e1 e2
          cases o.st n <;> simp [Consistent]
      obtain ⟨L0, a, o1, L1, g1, g2, g3⟩ := ih hprev ho
      refine ⟨L0, a, o1, L1 ++ report o t ms, by rw [g1]; simp, ?_, g3⟩
      intro b o' hx
      rcases List.mem_append.1 hx with hx | hx
      · exact g2 b o' hx
      · obtain ⟨x1, x2, x3, x4⟩ := mem_report.1 hx
        have hne := (hm n).1 x1
        rcases hcase with e | ⟨e, e'⟩ | ⟨e1, e2⟩
        · exact hne e
        · rw [e'] at x3; cases x3
        · rcases hprev with e | e
          · exact e1 e
          · exact e2 e

end Verif.Epx
