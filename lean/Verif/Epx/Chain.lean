import Verif.Epx.Tests
/-
Tests and clauses of an If with ElseIf.
-/
set_option autoImplicit false
set_option linter.unusedSimpArgs false
namespace Verif.Epx
open Verif.Node Verif.Exec Verif.Props.Sync

variable {Val Env : Type} {P : Plan Val Env}

/-- Node `c` is skipped only if test `k` has a result with `Q`. -/
def SkipOn (P : Plan Val Env) (c k : NodeId) (Q : Outcome → Failure → Prop) : Prop :=
  ∀ o, Says (P.node c).skip o (some true) → Q (o.out k) (o.fail k)

/-- Skipped or succeeded. -/
def NotReached (a : Outcome) (_ : Failure) : Prop := a = .skipped ∨ a = .success
/-- Skipped or not true. -/
def NotTaken (a : Outcome) (f : Failure) : Prop := a = .skipped ∨ f = .postFailed

/-- A clause that depends on a test. -/
structure IsClause (P : Plan Val Env) (p c k : NodeId) (v : Bool) : Prop where
  child : c ∈ (P.node p).children
  dep : DependsOn P c k v
  skip : SkipOn P c k (if v then NotTaken else NotReached)

/-- What follows a test. -/
def Chain (P : Plan Val Env) (p : NodeId) : NodeId → List (Branch Val Env) → Option (NodeId × NodeDef Val Env) → Prop
  | _, [], none => True
  | prev, [], some e => IsClause P p e.1 prev false
  | prev, b :: rest, e => IsTest P p b.test b.cond ∧ IsClause P p b.test prev false ∧ IsClause P p b.clause.1 b.test true ∧ Chain P p b.test rest e

theorem dependsOn_succ {c k : NodeId} (h : (P.node c).start = some (nodeSucceeded k)) : DependsOn P c k true := by
  intro o hm
  have := hm.2.2.2 _ h
  simp [nodeSucceeded] at this
  simpa using this.2

theorem dependsOn_fail {c k : NodeId} (h : (P.node c).start = some (nodePostconditionFailed k)) : DependsOn P c k false := by
  intro o hm
  have := hm.2.2.2 _ h
  simpa [nodePostconditionFailed] using this

theorem or3_true {a b : Option Bool} (h : or3 a b = some true) : a = some true ∨ b = some true := by
  rcases a with _ | _ | _ <;> rcases b with _ | _ | _ <;> simp [or3] at h ⊢

theorem skipOn_test {c k : NodeId} {first : Bool} (h : (P.node c).skip = some (testSkip first k)) : SkipOn P c k NotReached := by
  rintro o ⟨f, h1, h2⟩
  rw [h] at h1; cases h1
  unfold testSkip at h2
  split at h2
  · right; simp [nodeSucceeded] at h2; exact h2.2
  · rcases or3_true h2 with g | g
    · left; simpa [nodeSkipped] using g
    · right; simp [nodeSucceeded] at g; exact g.2

theorem skipOn_clause {c k : NodeId} {first : Bool} (h : (P.node c).skip = some (clauseSkip first k)) : SkipOn P c k NotTaken := by
  rintro o ⟨f, h1, h2⟩
  rw [h] at h1; cases h1
  unfold clauseSkip at h2
  split at h2
  · right; simpa [nodePostconditionFailed] using h2
  · rcases or3_true h2 with g | g
    · left; simpa [nodeSkipped] using g
    · right; simpa [nodePostconditionFailed] using g

theorem parts_cons {b : Branch Val Env} {bs : List (Branch Val Env)} {e : Option (NodeId × NodeDef Val Env)} {k : NodeId} (h : k ∈ parts bs e) :
    k ∈ parts (b :: bs) e := by
  unfold parts at h ⊢
  simp only [List.flatMap_cons, List.append_assoc]
  exact List.mem_append.2 (.inr h)

theorem elseIfs_parts (anc : List NodeId) (v : Obs Val Env → Val) (first : Bool) (prev : NodeId) (bs : List (Branch Val Env)) (e : Option (NodeId × NodeDef Val Env)) :
    (elseIfs anc v first prev bs e).map Prod.fst = parts bs e := by
  induction bs generalizing first prev with
  | nil => cases e <;> rfl
  | cons b rest ih => simp only [elseIfs, List.map_cons, ih, parts, List.flatMap_cons]; rfl

theorem elseIfs_chain {p : NodeId} {anc : List NodeId} {v : Obs Val Env → Val} {first : Bool} {prev : NodeId} {bs : List (Branch Val Env)}
    {e : Option (NodeId × NodeDef Val Env)} (hc : Contains P (elseIfs anc v first prev bs e)) (hk : ∀ k ∈ parts bs e, k ∈ (P.node p).children) :
    Chain P p prev bs e := by
  induction bs generalizing first prev with
  | nil =>
    cases e with
    | none => trivial
    | some e =>
      have := hc (e.1, clauseNode (nodePostconditionFailed prev) (testSkip first prev) e.2) (by simp [elseIfs])
      simp only [clauseNode] at this
      exact ⟨hk _ (by simp [parts]), dependsOn_fail (by rw [this]), skipOn_test (first := first) (by rw [this])⟩
  | cons b rest ih =>
    have h1 := hc _ (by unfold elseIfs; exact List.mem_cons_self)
    have h2 := hc _ (by unfold elseIfs; exact List.mem_cons_of_mem _ List.mem_cons_self)
    simp only [clauseNode] at h1 h2
    refine ⟨?_, ?_, ?_, ih (first := false) (fun x hx => hc x (by unfold elseIfs; exact List.mem_cons_of_mem _ (List.mem_cons_of_mem _ hx)))
      (fun k hk' => hk k (parts_cons hk'))⟩
    · constructor <;> first | exact hk _ (by simp [parts]) | rw [h1]
    · exact ⟨hk _ (by simp [parts]), dependsOn_fail (by rw [h1]), skipOn_test (first := first) (by rw [h1])⟩
    · exact ⟨hk _ (by simp [parts]), dependsOn_succ (by rw [h2]), skipOn_clause (first := false) (by rw [h2])⟩

/-- The first test and its clause, then the chain. -/
theorem if_chain {p : NodeId} {d : NodeDef Val Env} {b : Branch Val Env} {rest : List (Branch Val Env)} {e : Option (NodeId × NodeDef Val Env)}
    (hc : Contains P (ifElseIf p d b rest e)) :
    (P.node p).children = parts (b :: rest) e ∧ (P.node b.test).skip = none ∧ IsTest P p b.test b.cond ∧ IsClause P p b.clause.1 b.test true ∧ Chain P p b.test rest e := by
  have h0 := hc _ (by unfold ifElseIf; exact List.mem_cons_self)
  have h1 := hc _ (by unfold ifElseIf; exact List.mem_cons_of_mem _ List.mem_cons_self)
  have h2 := hc _ (by unfold ifElseIf; exact List.mem_cons_of_mem _ (List.mem_cons_of_mem _ List.mem_cons_self))
  simp only [clauseNode] at h0 h1 h2
  have hch : (P.node p).children = parts (b :: rest) e := by rw [h0]; simp only [elseIfs_parts]; rfl
  have hk : ∀ k ∈ parts (b :: rest) e, k ∈ (P.node p).children := by rw [hch]; exact fun _ h => h
  refine ⟨hch, by rw [h1], ?_, ?_, ?_⟩
  · constructor <;> first | exact hk _ (by simp [parts]) | rw [h1]
  · exact ⟨hk _ (by simp [parts]), dependsOn_succ (by rw [h2]), skipOn_clause (first := true) (by rw [h2])⟩
  · exact elseIfs_chain (fun x hx => hc x (by unfold ifElseIf; exact List.mem_cons_of_mem _ (List.mem_cons_of_mem _ (List.mem_cons_of_mem _ hx))))
      (fun k hk' => hk k (parts_cons hk'))

section since
variable {p : NodeId} {kids : List NodeId} {L : List (Event Val Env)} {t : Picture} {B : NodeId → Prop} {U : Obs Val Env → Prop}

/-- A test that depends on another and has evaluated its condition. -/
theorem Verdict.before (hA : PlanTree P) (hk : ∀ k ∈ kids, k ∈ (P.node p).children) (h : Since P p U (Fresh P p kids) L t B) {a b : NodeId} {ca cb : Obs Val Env → Option Bool}
    {v : Bool} (ha : a ∈ kids) (hb : b ∈ kids) (hTa : IsTest P p a ca) (hd : DependsOn P b a false) (hv : Verdict b cb L v) : Verdict a ca L false := by
  obtain ⟨o, ho⟩ := hv.1
  exact Since.after hA hk ha hTa hd h ((Since.active_started hA hk hb h).2 _ _ o ho (by simp [Active]))

/-- A clause that has started: its own test was true, all tests before were not. -/
theorem Since.chosen (hA : PlanTree P) (hk : ∀ k ∈ kids, k ∈ (P.node p).children) (h : Since P p U (Fresh P p kids) L t B) :
    ∀ {prev : NodeId} {cp : Obs Val Env → Option Bool} {bs : List (Branch Val Env)} {e : Option (NodeId × NodeDef Val Env)}, prev ∈ kids → IsTest P p prev cp →
      Chain P p prev bs e → (∀ k ∈ parts bs e, k ∈ kids) →
      (∀ l1 b l2, bs = l1 ++ b :: l2 → (∃ o, .trans b.test .executing .iterationEnded o ∈ L) → Verdict prev cp L false ∧ ∀ a ∈ l1, Verdict a.test a.cond L false) ∧
      (∀ l1 b l2, bs = l1 ++ b :: l2 → Started b.clause.1 L → Verdict b.test b.cond L true) ∧
      (∀ x, e = some x → Started x.1 L → Verdict prev cp L false ∧ ∀ a ∈ bs, Verdict a.test a.cond L false) := by
  intro prev cp bs
  induction bs generalizing prev cp with
  | nil =>
    intro e hp hT hC _
    refine ⟨by simp, by simp, ?_⟩
    rintro x rfl hx
    exact ⟨Since.after hA hk hp hT (IsClause.dep hC) h hx, by simp⟩
  | cons b rest ih =>
    intro e hp hT hC hsub
    obtain ⟨hTb, hCb, hCc, hC'⟩ := hC
    have hbk : b.test ∈ kids := hsub _ (by simp [parts])
    obtain ⟨i1, i2, i3⟩ := ih (e := e) hbk hTb hC' (fun k hk' => hsub k (parts_cons hk'))
    have back : (∃ o, .trans b.test .executing .iterationEnded o ∈ L) → Verdict prev cp L false := by
      rintro ⟨o, ho⟩
      exact Since.after hA hk hp hT hCb.dep h ((Since.active_started hA hk hbk h).2 _ _ o ho (by simp [Active]))
    refine ⟨?_, ?_, ?_⟩
    · intro l1 b' l2 e1 ho
      cases l1 with
      | nil =>
        simp only [List.nil_append, List.cons.injEq] at e1
        obtain ⟨rfl, rfl⟩ := e1
        exact ⟨back ho, by simp⟩
      | cons x l1 =>
        simp only [List.cons_append, List.cons.injEq] at e1
        obtain ⟨rfl, e1⟩ := e1
        obtain ⟨j1, j2⟩ := i1 l1 b' l2 e1 ho
        exact ⟨back j1.1, fun a ha => (List.mem_cons.1 ha).elim (fun e => e ▸ j1) (j2 a)⟩
    · intro l1 b' l2 e1 hst
      cases l1 with
      | nil =>
        simp only [List.nil_append, List.cons.injEq] at e1
        obtain ⟨rfl, rfl⟩ := e1
        exact Since.after hA hk hbk hTb hCc.dep h hst
      | cons x l1 =>
        simp only [List.cons_append, List.cons.injEq] at e1
        exact i2 l1 b' l2 e1.2 hst
    · intro x ex hst
      obtain ⟨j1, j2⟩ := i3 x ex hst
      exact ⟨back j1.1, fun a ha => (List.mem_cons.1 ha).elim (fun e => e ▸ j1) (j2 a)⟩

/-- Some clause has started if all are FINISHED, unless all tests were not true. -/
theorem Since.someClause (hA : PlanTree P) (hk : ∀ k ∈ kids, k ∈ (P.node p).children) (h : ∀ c ∈ kids, Since P p (fun o => ¬ ToldToStop P o c) (Fresh P p kids) L t B)
    (hexit : ∀ c ∈ kids, (P.node c).exit = none) (hfin : ∀ c ∈ kids, (t c).1 = .finished) :
    ∀ {prev : NodeId} {cp : Obs Val Env → Option Bool} {bs : List (Branch Val Env)} {e : Option (NodeId × NodeDef Val Env)}, prev ∈ kids → IsTest P p prev cp →
      Chain P p prev bs e → (∀ k ∈ parts bs e, k ∈ kids) → (t prev).2.2 = .postFailed →
      (∃ b ∈ bs, Started b.clause.1 L) ∨ (∃ x, e = some x ∧ Started x.1 L) ∨ (e = none ∧ ∀ b ∈ bs, Verdict b.test b.cond L false) := by
  intro prev cp bs
  induction bs generalizing prev cp with
  | nil =>
    intro e hp hT hC hsub hf
    cases e with
    | none => exact .inr (.inr ⟨rfl, by simp⟩)
    | some x =>
      right; left
      refine ⟨x, rfl, ?_⟩
      have hx : x.1 ∈ kids := hsub _ (by simp [parts])
      rcases Since.skipped hA hk hx hp hT (hexit _ hx) (Q := NotReached) (by simp [NotReached]) (IsClause.skip hC) (h _ hx) (hfin _ hx) with g | g
      · exact g
      · have := (Since.fits (h _ hp) prev).2
        rw [hf, hfin _ hp] at this
        rcases g with g | g <;> rw [g] at this <;> simp [Consistent] at this
  | cons b rest ih =>
    intro e hp hT hC hsub hf
    obtain ⟨hTb, hCb, hCc, hC'⟩ := hC
    have hbk : b.test ∈ kids := hsub _ (by simp [parts])
    have hck : b.clause.1 ∈ kids := hsub _ (by simp [parts])
    have hst : Started b.test L := by
      rcases Since.skipped hA hk hbk hp hT (hexit _ hbk) (Q := NotReached) (by simp [NotReached]) hCb.skip (h _ hbk) (hfin _ hbk) with g | g
      · exact g
      · have := (Since.fits (h _ hp) prev).2
        rw [hf, hfin _ hp] at this
        rcases g with g | g <;> rw [g] at this <;> simp [Consistent] at this
    rcases Since.tested hA hk hbk hTb (h _ hbk) hst with g | ⟨_, g | g⟩
    · rw [hfin _ hbk] at g; cases g
    · left
      refine ⟨b, by simp, ?_⟩
      rcases Since.skipped hA hk hck hbk hTb (hexit _ hck) (Q := NotTaken) (by simp [NotTaken]) hCc.skip (h _ hck) (hfin _ hck) with g' | g'
      · exact g'
      · have := (Since.fits (h _ hbk) b.test).2
        rw [g, hfin _ hbk] at this
        rcases g' with g' | g'
        · rw [g] at g'; cases g'
        · rw [g'] at this; simp [Consistent] at this
    · rcases ih (e := e) hbk hTb hC' (fun k hk' => hsub k (parts_cons hk')) g with ⟨b', g1, g2⟩ | g' | ⟨g1, g2⟩
      · exact .inl ⟨b', List.mem_cons_of_mem _ g1, g2⟩
      · exact .inr (.inl g')
      · refine .inr (.inr ⟨g1, fun b' hb' => (List.mem_cons.1 hb').elim (fun e => ?_) (g2 b')⟩)
        subst e
        exact (Since.test hA hk hbk hTb (h _ hbk)).fail g

end since

end Verif.Epx
