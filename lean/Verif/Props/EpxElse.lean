import Verif.Props.EpxIf
import Verif.Epx.Chain
/-
C120: If with ElseIf. C121: While.
-/
set_option autoImplicit false
set_option linter.unusedSimpArgs false
namespace Verif.Props.Epx
open Verif.Node Verif.Exec Verif.Epx Verif.Props.Sync

variable {Val Env : Type} {P : Plan Val Env}

theorem verdict_transfer {k : NodeId} {cond : Obs Val Env → Option Bool} {L L' : List (Event Val Env)} {v : Bool} (h : Verdict k cond L v)
    (h1 : ∀ o, .trans k .executing .iterationEnded o ∈ L → .trans k .executing .iterationEnded o ∈ L')
    (h2 : ∀ o, .trans k .executing .iterationEnded o ∈ L' → .trans k .executing .iterationEnded o ∈ L) : Verdict k cond L' v := by
  obtain ⟨⟨o, ho⟩, h⟩ := h
  exact ⟨⟨o, h1 o ho⟩, fun o' ho' => h o' (h2 o' ho')⟩

/-- An ongoing execution of a node, as seen in a synchronous execution. -/
theorem ongoing (hN : Notifies P) (hA : PlanTree P) {ph : Phase} {s : St Val Env} (h : ReachN P ph s) (hp : ph ≠ .trans) {p : NodeId} {kids : List NodeId}
    {U : Obs Val Env → Prop} {L1} (he : Ongoing p kids s.log L1) (hU : ∀ n a b o, .trans n a b o ∈ L1 → U o) :
    ∃ L' B, Since P p U (Fresh P p kids) L' (picture s.obs) B ∧ (∀ k ∈ kids, Started k L1 ↔ Started k L') ∧
      ∀ k ∈ kids, ∀ cond v, Verdict k cond L1 v ↔ Verdict k cond L' v := by
  obtain ⟨L', B, i1, i2, i3⟩ := h.sinceNow hN hA hp (U := U) he hU
  refine ⟨L', B, i1, fun k hk => ⟨?_, fun h => h.mono i2⟩, fun k hk cond v => ?_⟩
  · rintro ⟨y, o, g1, g2⟩
    exact ⟨y, o, i3 k _ _ _ g1 hk (by simp) (by simp), g2⟩
  · have g1 : ∀ o, .trans k .executing .iterationEnded o ∈ L1 → .trans k .executing .iterationEnded o ∈ L' := fun o ho => i3 k _ _ _ ho hk (by simp) (by simp)
    have g2 : ∀ o, .trans k .executing .iterationEnded o ∈ L' → .trans k .executing .iterationEnded o ∈ L1 := fun o ho => i2 _ ho
    exact ⟨fun h => verdict_transfer h g1 g2, fun h => verdict_transfer h g2 g1⟩

/-! ## C120 -/

/-- C120: in an execution of an If with ElseIf that began with none of its parts going on: a clause has started, or had its PreCondition checked, only if its condition was evaluated and
true, and the conditions before it were evaluated and not true (false or unknown); the Else clause only if all conditions were evaluated and not true. -/
theorem C120_first_true (hN : Notifies P) (hA : PlanTree P) {ph : Phase} {s : St Val Env} (h : ReachN P ph s) (hp : ph ≠ .trans) {p : NodeId} {d : NodeDef Val Env}
    {b0 : Branch Val Env} {rest : List (Branch Val Env)} {els : Option (NodeId × NodeDef Val Env)} (hc : Contains P (ifElseIf p d b0 rest els)) {L1}
    (he : Ongoing p (parts (b0 :: rest) els) s.log L1) :
    (∀ l1 b l2, b0 :: rest = l1 ++ b :: l2 → Started b.clause.1 L1 → Verdict b.test b.cond L1 true ∧ ∀ a ∈ l1, Verdict a.test a.cond L1 false) ∧
    (∀ e, els = some e → Started e.1 L1 → ∀ a ∈ b0 :: rest, Verdict a.test a.cond L1 false) := by
  obtain ⟨hch, _, hT, hCl, hCh⟩ := if_chain hc
  have hk : ∀ k ∈ parts (b0 :: rest) els, k ∈ (P.node p).children := by rw [hch]; exact fun _ h => h
  obtain ⟨L', B, i1, i2, i3⟩ := ongoing hN hA h hp (U := fun _ => True) he (fun _ _ _ _ _ => trivial)
  have hb0 : b0.test ∈ parts (b0 :: rest) els := by simp [parts]
  have hbc : ∀ b ∈ b0 :: rest, b.clause.1 ∈ parts (b0 :: rest) els ∧ b.test ∈ parts (b0 :: rest) els := fun b hb => by
    unfold parts
    exact ⟨List.mem_append.2 (.inl (List.mem_flatMap.2 ⟨b, hb, by simp⟩)), List.mem_append.2 (.inl (List.mem_flatMap.2 ⟨b, hb, by simp⟩))⟩
  obtain ⟨j1, j2, j3⟩ := Since.chosen hA hk i1 hb0 hT hCh (fun k hk => parts_cons hk)
  refine ⟨fun l1 b l2 e hst => ?_, fun e ee hst a ha => ?_⟩
  · have hb : b ∈ b0 :: rest := by rw [e]; simp
    rw [i2 _ (hbc b hb).1] at hst
    cases l1 with
    | nil =>
      simp only [List.nil_append, List.cons.injEq] at e
      obtain ⟨rfl, rfl⟩ := e
      refine ⟨(i3 _ (hbc _ hb).2 _ _).2 (Since.after hA hk hb0 hT hCl.dep i1 hst), by simp⟩
    | cons x l1 =>
      simp only [List.cons_append, List.cons.injEq] at e
      obtain ⟨rfl, e⟩ := e
      have hv := j2 l1 b l2 e hst
      obtain ⟨g1, g2⟩ := j1 l1 b l2 e hv.1
      refine ⟨(i3 _ (hbc _ hb).2 _ _).2 hv, fun a ha => ?_⟩
      have ha' : a ∈ b0 :: rest := by
        rw [e]; rcases List.mem_cons.1 ha with rfl | ha
        · simp
        · simp [ha]
      rw [i3 _ (hbc a ha').2]
      exact (List.mem_cons.1 ha).elim (fun e => e ▸ g1) (g2 a)
  · rw [i2 _ (by rw [ee]; simp [parts])] at hst
    obtain ⟨g1, g2⟩ := j3 e ee hst
    rw [i3 _ (hbc a ha).2]
    exact (List.mem_cons.1 ha).elim (fun e => e ▸ g1) (g2 a)

/-- Conditions are evaluated once in an execution, so not both true and not true. -/
theorem verdict_unique {k : NodeId} {cond : Obs Val Env → Option Bool} {L : List (Event Val Env)} (h1 : Verdict k cond L true) (h2 : Verdict k cond L false) : False := by
  obtain ⟨⟨o, ho⟩, h⟩ := h1
  have a := (h o ho).2 rfl
  have b := (h2.2 o ho).1 a
  cases b

/-- C120: at most one clause runs. -/
theorem C120_at_most_one (hN : Notifies P) (hA : PlanTree P) {ph : Phase} {s : St Val Env} (h : ReachN P ph s) (hp : ph ≠ .trans) {p : NodeId} {d : NodeDef Val Env}
    {b0 : Branch Val Env} {rest : List (Branch Val Env)} {els : Option (NodeId × NodeDef Val Env)} (hc : Contains P (ifElseIf p d b0 rest els)) {L1}
    (he : Ongoing p (parts (b0 :: rest) els) s.log L1) :
    (∀ l1 a l2 b l3, b0 :: rest = l1 ++ a :: (l2 ++ b :: l3) → ¬ (Started a.clause.1 L1 ∧ Started b.clause.1 L1)) ∧
    (∀ e b, els = some e → b ∈ b0 :: rest → ¬ (Started e.1 L1 ∧ Started b.clause.1 L1)) := by
  obtain ⟨h1, h2⟩ := C120_first_true hN hA h hp hc he
  refine ⟨?_, ?_⟩
  · rintro l1 a l2 b l3 e ⟨ga, gb⟩
    have va := (h1 l1 a (l2 ++ b :: l3) e ga).1
    have vb := (h1 (l1 ++ a :: l2) b l3 (by rw [e]; simp) gb).2 a (by simp)
    exact verdict_unique va vb
  · rintro e b ee hb ⟨ge, gb⟩
    obtain ⟨l1, l2, el⟩ := List.append_of_mem hb
    exact verdict_unique (h1 l1 b l2 el gb).1 (h2 e ee ge b hb)

/-- C120: some clause runs. In an execution of an If with ElseIf that began with none of its parts going on, whose clauses have no Exit condition, and in which no transition was
made while the parts were told to stop: once all parts are FINISHED, some clause has started or had its PreCondition checked, or all conditions were
evaluated and not true and there is no Else. (Exactly one with `C120_at_most_one`, the right one with `C120_first_true`.) -/
theorem C120_some_clause (hN : Notifies P) (hA : PlanTree P) {ph : Phase} {s : St Val Env} (h : ReachN P ph s) (hp : ph ≠ .trans) {p : NodeId} {d : NodeDef Val Env}
    {b0 : Branch Val Env} {rest : List (Branch Val Env)} {els : Option (NodeId × NodeDef Val Env)} (hc : Contains P (ifElseIf p d b0 rest els))
    (hexit : ∀ c ∈ parts (b0 :: rest) els, (P.node c).exit = none) {L1}
    (he : Ongoing p (parts (b0 :: rest) els) s.log L1) (hstop : ∀ n x y o', .trans n x y o' ∈ L1 → ¬ ToldToStop P o' b0.test)
    (hfin : ∀ c ∈ parts (b0 :: rest) els, nodeFinished c s.obs = some true) :
    (∃ b ∈ b0 :: rest, Started b.clause.1 L1) ∨ (∃ e, els = some e ∧ Started e.1 L1) ∨
      (els = none ∧ ∀ b ∈ b0 :: rest, Verdict b.test b.cond L1 false) := by
  obtain ⟨hch, hsk, hT, hCl, hCh⟩ := if_chain hc
  have hk : ∀ k ∈ parts (b0 :: rest) els, k ∈ (P.node p).children := by rw [hch]; exact fun _ h => h
  obtain ⟨L', B, i1, i2, i3⟩ := ongoing hN hA h hp (U := fun o => ¬ ToldToStop P o b0.test) he hstop
  have hb0 : b0.test ∈ parts (b0 :: rest) els := by simp [parts]
  have hc0 : b0.clause.1 ∈ parts (b0 :: rest) els := by simp [parts]
  have hbc : ∀ b ∈ b0 :: rest, b.clause.1 ∈ parts (b0 :: rest) els ∧ b.test ∈ parts (b0 :: rest) els := fun b hb => by
    unfold parts
    exact ⟨List.mem_append.2 (.inl (List.mem_flatMap.2 ⟨b, hb, by simp⟩)), List.mem_append.2 (.inl (List.mem_flatMap.2 ⟨b, hb, by simp⟩))⟩
  have hall : ∀ c ∈ parts (b0 :: rest) els, Since P p (fun o => ¬ ToldToStop P o c) (Fresh P p (parts (b0 :: rest) els)) L' (picture s.obs) B := by
    intro c hcc
    refine Since.mono (fun o ho => ?_) (fun _ _ h => h) i1
    rw [told_sibling (c' := b0.test) (by rw [hA.child p c (hk c hcc), hA.child p b0.test (hk _ hb0)])]
    exact ho
  have hfin' : ∀ c ∈ parts (b0 :: rest) els, (picture s.obs c).1 = .finished := fun c hcc => nodeFinished_iff.1 (hfin c hcc)
  have conv : (∃ b ∈ b0 :: rest, Started b.clause.1 L') ∨ (∃ e, els = some e ∧ Started e.1 L') ∨ (els = none ∧ ∀ b ∈ b0 :: rest, Verdict b.test b.cond L' false) →
      (∃ b ∈ b0 :: rest, Started b.clause.1 L1) ∨ (∃ e, els = some e ∧ Started e.1 L1) ∨ (els = none ∧ ∀ b ∈ b0 :: rest, Verdict b.test b.cond L1 false) := by
    rintro (⟨b, g1, g2⟩ | ⟨e, g1, g2⟩ | ⟨g1, g2⟩)
    · exact .inl ⟨b, g1, (i2 _ (hbc b g1).1).2 g2⟩
    · exact .inr (.inl ⟨e, g1, (i2 _ (by rw [g1]; simp [parts])).2 g2⟩)
    · exact .inr (.inr ⟨g1, fun b hb => (i3 _ (hbc b hb).2 _ _).2 (g2 b hb)⟩)
  apply conv
  have hst : Started b0.test L' := by
    rcases Since.skipped hA hk hb0 hb0 hT (hexit _ hb0) (Q := fun _ _ => False) (fun h => h)
      (fun o ⟨f, g, _⟩ => by rw [hsk] at g; cases g) (hall _ hb0) (hfin' _ hb0) with g | g
    · exact g
    · exact g.elim
  rcases Since.tested hA hk hb0 hT (hall _ hb0) hst with g | ⟨_, g | g⟩
  · rw [hfin' _ hb0] at g; cases g
  · left
    refine ⟨b0, by simp, ?_⟩
    rcases Since.skipped hA hk hc0 hb0 hT (hexit _ hc0) (Q := NotTaken) (by simp [NotTaken]) hCl.skip (hall _ hc0) (hfin' _ hc0) with g' | g'
    · exact g'
    · have := (Since.fits i1 b0.test).2
      rw [g, hfin' _ hb0] at this
      rcases g' with g' | g'
      · rw [g] at g'; cases g'
      · rw [g'] at this; simp [Consistent] at this
  · rcases Since.someClause hA hk hall hexit hfin' hb0 hT hCh (fun k hk => parts_cons hk) g with ⟨b', g1, g2⟩ | g' | ⟨g1, g2⟩
    · exact .inl ⟨b', List.mem_cons_of_mem _ g1, g2⟩
    · exact .inr (.inl g')
    · refine .inr (.inr ⟨g1, fun b' hb' => (List.mem_cons.1 hb').elim (fun e => ?_) (g2 b')⟩)
      subst e
      exact (Since.test hA hk hb0 hT (hall _ hb0)).fail g

/-! ## C121: While -/

theorem while_test {p : NodeId} {d : NodeDef Val Env} {test : NodeId} {cond : Obs Val Env → Option Bool} {a : NodeId × NodeDef Val Env}
    (hc : Contains P (whileLoop p d test cond a)) :
    (P.node p).children = [test, a.1] ∧ (P.node p).rep = some (nodeSucceeded test) ∧ (P.node test).skip = none ∧ IsTest P p test cond ∧ IsClause P p a.1 test true := by
  have h0 := hc _ (by unfold whileLoop; exact List.mem_cons_self)
  have h1 := hc _ (by unfold whileLoop; exact List.mem_cons_of_mem _ List.mem_cons_self)
  have h2 := hc _ (by unfold whileLoop; exact List.mem_cons_of_mem _ (List.mem_cons_of_mem _ List.mem_cons_self))
  simp only [testNode, whileAction] at h0 h1 h2
  have hch : (P.node p).children = [test, a.1] := by rw [h0]
  have hk : ∀ k ∈ [test, a.1], k ∈ (P.node p).children := by rw [hch]; exact fun _ h => h
  refine ⟨hch, by rw [h0], by rw [h1], ?_, hk _ (by simp), dependsOn_succ (by rw [h2]), skipOn_clause (first := true) (by rw [h2]; rfl)⟩
  constructor <;> first | exact hk _ (by simp) | rw [h1]

/-- C121: in an iteration of a While that began with none of its parts going on, the action has started, or had its PreCondition checked, only if the condition was evaluated in this
iteration and true. -/
theorem C121_action (hN : Notifies P) (hA : PlanTree P) {ph : Phase} {s : St Val Env} (h : ReachN P ph s) (hp : ph ≠ .trans) {p : NodeId} {d : NodeDef Val Env}
    {test : NodeId} {cond : Obs Val Env → Option Bool} {a : NodeId × NodeDef Val Env} (hc : Contains P (whileLoop p d test cond a)) {L1}
    (he : Ongoing p [test, a.1] s.log L1) (hst : Started a.1 L1) : Verdict test cond L1 true := by
  obtain ⟨hch, _, _, hT, hC⟩ := while_test hc
  have hk : ∀ k ∈ [test, a.1], k ∈ (P.node p).children := by rw [hch]; exact fun _ h => h
  obtain ⟨L', B, i1, i2, i3⟩ := ongoing hN hA h hp (U := fun _ => True) he (fun _ _ _ _ _ => trivial)
  rw [i2 _ (by simp)] at hst
  rw [i3 _ (by simp)]
  exact Since.after hA hk (by simp) hT hC.dep i1 hst

/-- C121: a While goes on to the next iteration only if the condition was evaluated in this one and true. -/
theorem C121_repeats (hN : Notifies P) (hA : PlanTree P) {ph : Phase} {s : St Val Env} (h : ReachN P ph s) {p : NodeId} {d : NodeDef Val Env}
    {test : NodeId} {cond : Obs Val Env → Option Bool} {a : NodeId × NodeDef Val Env} (hc : Contains P (whileLoop p d test cond a)) {L1 o}
    (he : During p [test, a.1] s.log L1 p .iterationEnded .waiting o) : Verdict test cond L1 true := by
  obtain ⟨hch, hrep, _, hT, hC⟩ := while_test hc
  have hk : ∀ k ∈ [test, a.1], k ∈ (P.node p).children := by rw [hch]; exact fun _ h => h
  obtain ⟨t, B, B', h2, h3, h4, h5, h6⟩ := h.during hN hA (U := fun _ => True) he (fun _ _ _ _ _ => trivial)
  rcases step_to_waiting h2 h4.symm with g | g | ⟨_, f, g1, g2⟩
  · rw [← h3] at g; cases g
  · rw [← h3] at g; cases g
  · rw [hrep] at g1; cases g1
    have g2 : o.st test = .finished ∧ o.out test = .success := by simpa [nodeSucceeded] using g2
    rcases h6 with ⟨h7, _⟩ | ⟨L', h7, h8, h9⟩
    · rw [← h3] at h7; cases h7
    · refine verdict_transfer ((Since.test hA hk (by simp) hT h7).succ g2.2) (fun o' ho' => h8 _ ho') (fun o' ho' => ?_)
      rcases h9 test _ _ _ ho' (by simp) (by simp) (by simp) with g | ⟨_, g, _⟩
      · exact g
      · rw [g2.1] at g; cases g

/-- A child is told to stop if its parent is, or if its parent's ExitCondition is true or InvariantCondition false. -/
theorem told_child (hA : PlanTree P) {p k : NodeId} (hk : k ∈ (P.node p).children) {o : Obs Val Env}
    (h : ToldToStop P o p ∨ Says (P.node p).exit o (some true) ∨ Says (P.node p).inv o (some false)) : ToldToStop P o k := by
  unfold ToldToStop
  rw [hA.child p k hk]
  rcases h with ⟨a, h1, h2⟩ | h | h
  · exact ⟨a, List.mem_cons_of_mem _ h1, h2⟩
  · exact ⟨p, List.mem_cons_self, .inl h⟩
  · exact ⟨p, List.mem_cons_self, .inr (.inl h)⟩

theorem Since.loop (hA : PlanTree P) {p : NodeId} {d : NodeDef Val Env} {test : NodeId} {cond : Obs Val Env → Option Bool} {a : NodeId × NodeDef Val Env}
    (hc : Contains P (whileLoop p d test cond a)) (hend : d.endc = none) {L : List (Event Val Env)} {t : Picture} {B}
    (h : Since P p (fun o => ¬ ToldToStop P o test) (Fresh P p [test, a.1]) L t B) :
    (t p).1 = .executing ∨ (((t p).1 = .finishing ∨ (t p).1 = .iterationEnded) ∧ ∀ k ∈ [test, a.1], (t k).1 = .finished) ∨
      (((t p).1 = .finished ∨ (t p).1 = .inactive) ∧ (∀ k ∈ [test, a.1], (t k).1 = .finished) ∧ (t test).2.1 ≠ .success) := by
  obtain ⟨hch, hrep, _, hT, hC⟩ := while_test hc
  have hk : ∀ k ∈ [test, a.1], k ∈ (P.node p).children := by rw [hch]; exact fun _ h => h
  have hty : (P.node p).type = .list ∧ (P.node p).endc = none := by
    rw [hc (p, _) (by unfold whileLoop; exact List.mem_cons_self)]; exact ⟨rfl, hend⟩
  induction h with
  | base h => exact .inl (h.start hA hk).1
  | @step L o B t B' ms hprev hs h1 h2 hm ih =>
    have hpw : o.st p ≠ .waiting := (Since.begun hA hk hprev).1
    have keep : (∀ k ∈ [test, a.1], o.st k = .finished) → ∀ k ∈ [test, a.1], t k = picture o k := fun hf k hkk =>
      step_finished hs (hA.child p k (hk k hkk)) (hf k hkk) hpw
    have keep1 : (∀ k ∈ [test, a.1], o.st k = .finished) → ∀ k ∈ [test, a.1], (t k).1 = .finished := fun hf k hkk => by
      rw [keep hf k hkk]; exact hf k hkk
    by_cases hsame : (t p).1 = o.st p
    · rcases ih with i | ⟨i1, i2⟩ | ⟨i1, i2, i3⟩
      · exact .inl (hsame.trans i)
      · exact .inr (.inl ⟨by rw [hsame]; exact i1, keep1 i2⟩)
      · exact .inr (.inr ⟨by rw [hsame]; exact i1, keep1 i2, by rw [keep i2 test (by simp)]; exact i3⟩)
    · obtain ⟨_, e, hd, he⟩ := hs.moved hsame
      have hnt : ¬ ToldToStop P o test := h2 fun e => by have := (hm p).2 hsame; rw [e] at this; cases this
      have hn1 : ¬ ToldToStop P o p := fun g => hnt (told_child hA hT.child (.inl g))
      have hx1 : isT (conds P o p).exit = false := by
        cases hx : isT (conds P o p).exit with
        | false => rfl
        | true => exact absurd (told_child hA hT.child (.inr (.inl (isT_says.1 hx)))) hnt
      have hx2 : isF (conds P o p).inv = false := by
        cases hx : isF (conds P o p).inv with
        | false => rfl
        | true => exact absurd (told_child hA hT.child (.inr (.inr (isF_says.1 hx)))) hnt
      rw [told_iff] at hn1
      simp only [not_or, Bool.not_eq_true] at hn1
      obtain ⟨n1, n2, n3⟩ := hn1
      unfold decideNext at hd
      rw [hty.1] at hd
      rcases ih with i | ⟨i1 | i1, i2⟩ | ⟨i1, i2, i3⟩
      · rw [show o.st p = .executing from i] at hd
        simp only [getDest, fromExecuting, abnormal, n1, n2, hx1, hx2] at hd
        cases hne : notT (conds P o p).endc
        · rw [hne] at hd
          simp at hd
          have hall : allFinished o [test, a.1] = true := by
            simp only [conds, hty, hch, notT] at hne
            simpa using hne
          have hf : ∀ k ∈ [test, a.1], o.st k = .finished := fun k hkk => by
            unfold allFinished at hall
            simpa using List.all_eq_true.1 hall k hkk
          exact .inr (.inl ⟨.inl (by rw [← he, ← hd]), keep1 hf⟩)
        · rw [hne] at hd; simp at hd
      · rw [show o.st p = .finishing from i1] at hd
        simp only [getDest] at hd
        rcases fromFinishing_dest hd with g | g
        · simp only [getDest, fromFinishing, abnormal, n1, n2, hx1, hx2] at hd
          cases hac : isT (conds P o p).actionComplete <;> rw [hac] at hd <;> simp at hd
          rw [← hd, endIteration_dest] at g; cases g
        · exact .inr (.inl ⟨.inr (by rw [← he, g]), keep1 i2⟩)
      · rw [show o.st p = .iterationEnded from i1] at hd
        simp only [getDest, fromIterationEnded, n1, n2, n3] at hd
        have hr : (conds P o p).rep = some (nodeSucceeded test o) := by show evalC (P.node p).rep o = _; rw [hrep]; rfl
        rw [hr] at hd
        have hft : o.st test = .finished := i2 test (by simp)
        by_cases hs1 : o.out test = .success
        · rw [show nodeSucceeded test o = some true by simp [nodeSucceeded, hft, hs1]] at hd
          simp [isT] at hd
          rw [← hd] at he
          exact absurd he.symm (h1 hpw)
        · rw [show nodeSucceeded test o = some false by simp [nodeSucceeded, hft, hs1]] at hd
          simp [isT] at hd
          rw [← hd] at he
          exact .inr (.inr ⟨.inl he.symm, keep1 i2, by rw [keep i2 test (by simp)]; exact hs1⟩)
      · refine .inr (.inr ⟨?_, keep1 i2, by rw [keep i2 test (by simp)]; exact i3⟩)
        rcases i1 with i1 | i1
        · rw [show o.st p = .finished from i1] at hd
          simp only [getDest, fromFinished] at hd
          split at hd
          · cases hd; exact .inr he.symm
          · cases hd
        · rw [show o.st p = .inactive from i1] at hd
          simp only [getDest, fromInactive] at hd
          have hnw : e.state ≠ .waiting := by rw [he]; exact h1 hpw
          revert hd
          repeat' split
          all_goals first | (rintro ⟨⟩; first | exact .inl he.symm | exact absurd rfl hnw) | (intro hd; cases hd)

/-- C121: a While that was not told to stop, nor its parts, and has no EndCondition of its own, ends only after an iteration in which the condition was evaluated and not true. -/
theorem C121_ends (hN : Notifies P) (hA : PlanTree P) {ph : Phase} {s : St Val Env} (h : ReachN P ph s) (hp : ph ≠ .trans) {p : NodeId} {d : NodeDef Val Env}
    {test : NodeId} {cond : Obs Val Env → Option Bool} {a : NodeId × NodeDef Val Env} (hc : Contains P (whileLoop p d test cond a)) (hend : d.endc = none) {L1}
    (he : Ongoing p [test, a.1] s.log L1) (hstop : ∀ n x y o', .trans n x y o' ∈ L1 → ¬ ToldToStop P o' test) (hfin : nodeFinished p s.obs = some true) :
    Verdict test cond L1 false ∧ ¬ Started a.1 L1 := by
  obtain ⟨hch, _, hsk, hT, hC⟩ := while_test hc
  have hk : ∀ k ∈ [test, a.1], k ∈ (P.node p).children := by rw [hch]; exact fun _ h => h
  obtain ⟨L', B, i1, i2, i3⟩ := ongoing hN hA h hp (U := fun o => ¬ ToldToStop P o test) he hstop
  have hpf : s.obs.st p = .finished := nodeFinished_iff.1 hfin
  have hv : Verdict test cond L' false := by
    rcases Since.loop hA hc hend i1 with g | ⟨g, _⟩ | ⟨_, g1, g2⟩
    · rw [show (picture s.obs p).1 = s.obs.st p from rfl, hpf] at g; cases g
    · rw [show (picture s.obs p).1 = s.obs.st p from rfl, hpf] at g; rcases g with g | g <;> cases g
    · have hst : Started test L' := by
        rcases Since.skipped hA hk (c := test) (k := test) (by simp) (by simp) hT hT.exit (Q := fun _ _ => False) (fun h => h)
          (fun o ⟨f, g, _⟩ => by rw [hsk] at g; cases g) i1 (g1 _ (by simp)) with g | g
        · exact g
        · exact g.elim
      rcases Since.tested hA hk (by simp) hT i1 hst with g | ⟨_, g | g⟩
      · rw [g1 _ (by simp)] at g; cases g
      · exact absurd g g2
      · exact (Since.test hA hk (by simp) hT i1).fail g
  refine ⟨(i3 _ (by simp) _ _).2 hv, fun hst => ?_⟩
  exact verdict_unique (Since.after hA hk (by simp) hT hC.dep i1 ((i2 _ (by simp)).1 hst)) hv

/-! ## An If with ElseIf, and a While -/

set_option maxRecDepth 10000

/-- "if env is 1 then (2), else if ... then (4), else (5)": the second condition is unknown if env is 2, else true. Tests 1 and 3. -/
def many : Block Int Nat := ifElseIf 0 (plain []) ⟨1, fun o => some (o.env == 1), (2, plain [0])⟩
  [⟨3, fun o => if o.env = 2 then none else some true, (4, plain [0])⟩] (some (5, plain [0]))

theorem many_contains : Contains (planOf many) many := planOf_contains (by decide) fun _ h => h

theorem many_exit : ∀ c ∈ [1, 2, 3, 4, 5], ((planOf many).node c).exit = none := by
  intro c hc
  simp only [List.mem_cons, List.not_mem_nil, or_false] at hc
  rcases hc with rfl | rfl | rfl | rfl | rfl <;> rfl

theorem many_told (o : Obs Int Nat) : ¬ ToldToStop (planOf many) o 1 := no_told (by
  intro a ha
  obtain rfl : a = 0 := by simpa [show ((planOf many).node 1).anc = [0] from rfl] using ha
  exact ⟨rfl, rfl, rfl⟩) o

/-- With env 2 the Else clause runs, with env 3 the second: the hypotheses of `C120_first_true`, `C120_at_most_one` and `C120_some_clause` are met. -/
example : (∃ s, ReachN (planOf many) .idle s ∧ ∃ L1, Ongoing 0 [1, 2, 3, 4, 5] s.log L1 ∧ Started 5 L1 ∧ ¬ Started 2 L1 ∧ ¬ Started 4 L1 ∧
      ∀ c ∈ [1, 2, 3, 4, 5], nodeFinished c s.obs = some true) ∧
    (∃ s, ReachN (planOf many) .idle s ∧ ∃ L1, Ongoing 0 [1, 2, 3, 4, 5] s.log L1 ∧ Started 4 L1 ∧ ¬ Started 2 L1 ∧ ¬ Started 5 L1) := by
  constructor
  · obtain ⟨ph, s, h, hf⟩ := exists_runN (planOf_good many) [.cmd (.ext 2 [0, 1, 2, 3, 4, 5]), .macroStep] rfl (fun _ => 0) 0
      (fun x => (x.1, ongoingCheck 0 [1, 2, 3, 4, 5] 1 x.2.log, startedCheck 5 (x.2.log.drop 2), [1, 2, 3, 4, 5].all fun c => nodeFinished c x.2.obs == some true))
      (.idle, true, true, true) rfl
    simp only [Prod.mk.injEq] at hf
    obtain ⟨rfl, h1, h2, h3⟩ := hf
    have ho := ongoingCheck_spec h1
    have hx := startedCheck_iff.1 h2
    have hfin : ∀ c ∈ [1, 2, 3, 4, 5], nodeFinished c s.obs = some true := fun c hc => by simpa using List.all_eq_true.1 h3 c hc
    have h4 := (C120_at_most_one (planOf_notifies many) (planOf_tree (top := 5) rfl) h (by simp) many_contains ho).2
    have h5 := C120_some_clause (planOf_notifies many) (planOf_tree (top := 5) rfl) h (by simp) many_contains many_exit ho (fun _ _ _ o _ => many_told o) hfin
    exact ⟨s, h, _, ho, hx, fun g => h4 _ _ rfl (List.mem_cons_self) ⟨hx, g⟩, fun g => h4 _ _ rfl (List.mem_cons_of_mem _ List.mem_cons_self) ⟨hx, g⟩, hfin⟩
  · obtain ⟨ph, s, h, hf⟩ := exists_runN (planOf_good many) [.cmd (.ext 3 [0, 1, 2, 3, 4, 5]), .macroStep] rfl (fun _ => 0) 0
      (fun x => (x.1, ongoingCheck 0 [1, 2, 3, 4, 5] 1 x.2.log, startedCheck 4 (x.2.log.drop 2))) (.idle, true, true) rfl
    simp only [Prod.mk.injEq] at hf
    obtain ⟨rfl, h1, h2⟩ := hf
    have ho := ongoingCheck_spec h1
    have hx := startedCheck_iff.1 h2
    have h4 := C120_at_most_one (planOf_notifies many) (planOf_tree (top := 5) rfl) h (by simp) many_contains ho
    exact ⟨s, h, _, ho, hx, fun g => h4.1 [] _ [] _ [] rfl ⟨g, hx⟩, fun g => h4.2 _ _ rfl (List.mem_cons_of_mem _ List.mem_cons_self) ⟨g, hx⟩⟩

/-- While (0) env is 1 (test 1): an action (2) that runs until env is 2. -/
def looping : Block Int Nat := whileLoop 0 (plain []) 1 (fun o => some (o.env == 1)) (2, { plain [0] with endc := some fun o => some (o.env == 2) })

theorem looping_contains : Contains (planOf looping) looping := planOf_contains (by decide) fun _ h => h

theorem looping_told (o : Obs Int Nat) : ¬ ToldToStop (planOf looping) o 1 := no_told (by
  intro a ha
  obtain rfl : a = 0 := by simpa [show ((planOf looping).node 1).anc = [0] from rfl] using ha
  exact ⟨rfl, rfl, rfl⟩) o

/-- The hypotheses of `C121_action` are met while the action runs. -/
example : ∃ s, ReachN (planOf looping) .idle s ∧ ∃ L1, Ongoing 0 [1, 2] s.log L1 ∧ Started 2 L1 ∧ Verdict 1 (fun o => some (o.env == 1)) L1 true := by
  obtain ⟨ph, s, h, hf⟩ := exists_runN (planOf_good looping) [.cmd (.ext 1 [0, 1, 2]), .macroStep] rfl (fun _ => 0) 0
    (fun x => (x.1, ongoingCheck 0 [1, 2] 1 x.2.log, startedCheck 2 (x.2.log.drop 2))) (.idle, true, true) rfl
  simp only [Prod.mk.injEq] at hf
  obtain ⟨rfl, h1, h2⟩ := hf
  have ho := ongoingCheck_spec h1
  have hx := startedCheck_iff.1 h2
  exact ⟨s, h, _, ho, hx, C121_action (planOf_notifies looping) (planOf_tree (top := 2) rfl) h (by simp) looping_contains ho hx⟩

/-- The hypotheses of `C121_repeats` and `C121_ends` are met: the loop goes on after the first iteration and ends after the second. -/
example : ∃ s, ReachN (planOf looping) .idle s ∧ (∃ L1 o, During 0 [1, 2] s.log L1 0 .iterationEnded .waiting o) ∧
    ∃ L1, Ongoing 0 [1, 2] s.log L1 ∧ nodeFinished 0 s.obs = some true ∧ ¬ Started 2 L1 := by
  obtain ⟨ph, s, h, hf⟩ := exists_runN (planOf_good looping) [.cmd (.ext 1 [0, 1, 2]), .macroStep, .cmd (.ext 2 [0, 1, 2]), .macroStep] rfl (fun _ => 0) 0
    (fun x => (x.1, duringCheck 0 [1, 2] 0 .iterationEnded .waiting 1 14 x.2.log, ongoingCheck 0 [1, 2] 17 x.2.log, nodeFinished 0 x.2.obs))
    (.idle, true, true, some true) rfl
  simp only [Prod.mk.injEq] at hf
  obtain ⟨rfl, h1, h2, h3⟩ := hf
  have ho := ongoingCheck_spec h2
  obtain ⟨o, hd⟩ := duringCheck_spec h1
  exact ⟨s, h, ⟨_, o, hd⟩, _, ho, h3, (C121_ends (planOf_notifies looping) (planOf_tree (top := 2) rfl) h (by simp) looping_contains rfl ho
    (fun _ _ _ o _ => looping_told o) h3).2⟩

/-- A While like `looping`, with the InvariantCondition that the action has not Failed, and an action that Fails. -/
def unchecked : Block Int Nat := whileLoop 0 { plain [] with inv := some fun o => not3 (nodeFailed 2 o) } 1 (fun o => some (o.env == 1))
  (2, { plain [0] with endc := some fun o => some (o.env == 2), post := some fun _ => some false })

/-- C121: a While whose InvariantCondition has failed need not end, nor Fail: its RepeatCondition is that the test Succeeded, whatever the iteration's outcome, so it starts another iteration, in
which the InvariantCondition may be true again; here it ends with SUCCESS. (`while.xsl:74-80`, `NodeImpl.cc:1269-1341`.) -/
theorem C121_invariant_refuted : Notifies (planOf unchecked) ∧ PlanTree (planOf unchecked) ∧ Contains (planOf unchecked) unchecked ∧ ∃ s, ReachN (planOf unchecked) .idle s ∧
    s.cand = [] ∧ (∃ o, .trans 0 .executing .failing o ∈ s.log ∧ nodeFailed 2 o = some true) ∧ nodeSucceeded 0 s.obs = some true := by
  refine ⟨planOf_notifies unchecked, planOf_tree (top := 2) rfl, planOf_contains (by decide) fun _ h => h, ?_⟩
  obtain ⟨ph, s, h, hf⟩ := exists_runN (planOf_good unchecked) [.cmd (.ext 1 [0, 1, 2]), .macroStep, .cmd (.ext 2 [0, 1, 2]), .macroStep] rfl (fun _ => 0) 0
    (fun x => (x.1, x.2.cand, x.2.log.any (fun | .trans n a b o => n == 0 && a == .executing && b == .failing && nodeFailed 2 o == some true | _ => false),
      nodeSucceeded 0 x.2.obs)) (.idle, [], true, some true) rfl
  simp only [Prod.mk.injEq] at hf
  obtain ⟨rfl, h1, h2, h3⟩ := hf
  obtain ⟨e, g1, g2⟩ := List.any_eq_true.1 h2
  split at g2
  · simp at g2
    obtain ⟨⟨⟨rfl, rfl⟩, rfl⟩, g2⟩ := g2
    exact ⟨s, h, h1, ⟨_, g1, g2⟩, h3⟩
  · cases g2

end Verif.Props.Epx
