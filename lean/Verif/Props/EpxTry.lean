import Verif.Props.EpxElse
/-
C122: Try.
-/
set_option autoImplicit false
set_option linter.unusedSimpArgs false
namespace Verif.Props.Epx
open Verif.Node Verif.Exec Verif.Epx Verif.Props.Sync

variable {Val Env : Type} {P : Plan Val Env}

theorem try_linked {p : NodeId} {d : NodeDef Val Env} {kids : Block Val Env} (h : Contains P (tryNode p d kids)) : Linked P p kids := by
  refine ⟨fun k hk => ?_, fun x hx => h x (by simp [tryNode, hx])⟩
  rw [h (p, _) (by unfold tryNode; exact List.mem_cons_self)]
  exact List.mem_map.2 ⟨k, hk, rfl⟩

theorem orAll_true {l : List (Option Bool)} : orAll l = some true ↔ some true ∈ l := by
  unfold orAll
  induction l with
  | nil => simp
  | cons x l ih =>
    simp only [List.foldr_cons, List.mem_cons, ← ih]
    generalize l.foldr or3 (some false) = y
    rcases x with _ | _ | _ <;> rcases y with _ | _ | _ <;> simp [or3]

/-- The end condition of a Try. -/
theorem try_end {p : NodeId} {d : NodeDef Val Env} {kids : Block Val Env} (hc : Contains P (tryNode p d kids)) {o : Obs Val Env} {k : NodeId}
    (h : (k ∈ (kids.map Prod.fst).dropLast ∧ nodeSucceeded k o = some true) ∨ (2 ≤ kids.length ∧ (kids.map Prod.fst).getLast? = some k ∧ nodeFinished k o = some true)) :
    Says (P.node p).endc o (some true) := by
  rw [hc (p, _) (by unfold tryNode; exact List.mem_cons_self)]
  simp only [tryEnd]
  have hlen : ¬ (kids.map Prod.fst).length < 2 := by
    intro hl
    rcases h with ⟨h, _⟩ | ⟨h, _⟩
    · have : (kids.map Prod.fst).dropLast.length = 0 := by simp at hl ⊢; omega
      rw [List.length_eq_zero_iff.1 this] at h; cases h
    · simp at hl; omega
  rw [if_neg hlen]
  refine ⟨_, rfl, orAll_true.2 ?_⟩
  rcases h with ⟨h1, h2⟩ | ⟨_, h1, h2⟩
  · exact List.mem_append.2 (.inl (List.mem_map.2 ⟨k, h1, h2⟩))
  · refine List.mem_append.2 (.inr ?_)
    rw [h1]; simp [h2]

/-- C122: the alternatives of a Try are tried in order until one Succeeds: an alternative starts, or has its PreCondition checked, only when the alternative before it is FINISHED and no
alternative (other than possibly the last) has Succeeded. -/
theorem C122_until_success (hN : Notifies P) (hA : PlanTree P) {ph : Phase} {s : St Val Env} (h : ReachN P ph s) {p : NodeId} {d : NodeDef Val Env}
    {kids : Block Val Env} (hc : Contains P (tryNode p d kids)) {b : NodeId × NodeDef Val Env} {l1 l2} (hk : kids = l1 ++ b :: l2) {x o}
    (he : .trans b.1 .waiting x o ∈ s.log) (hx : x = .executing ∨ x = .iterationEnded) :
    (∀ a, l1.getLast? = some a → nodeFinished a.1 o = some true) ∧ ∀ k ∈ kids.dropLast, nodeSucceeded k.1 o = some false := by
  have hm := start_event hN hA h he hx
  have hl := try_linked hc
  refine ⟨fun a ha => ?_, fun k hkk => ?_⟩
  · obtain ⟨l1', rfl⟩ : ∃ l1', l1 = l1' ++ [a] := by
      rcases List.eq_nil_or_concat l1 with rfl | ⟨l1', a', rfl⟩
      · simp at ha
      · simp at ha; subst ha; exact ⟨l1', by simp⟩
    exact nodeFinished_iff.2 (hl.starts (l1 := l1') (a := a) (b := b) (l2 := l2) (by rw [hk]; simp) hm.2.2.2)
  · cases hf : nodeSucceeded k.1 o with
    | none => simp [nodeSucceeded] at hf
    | some v =>
      cases v with
      | false => rfl
      | true =>
        have hanc := hA.child p b.1 (hl.child b (by rw [hk]; simp))
        exact absurd ⟨p, by rw [hanc]; simp, .inr (.inr (try_end hc (k := k.1) (.inl ⟨by rw [← List.map_dropLast]; exact List.mem_map.2 ⟨k, hkk, rfl⟩, hf⟩)))⟩ hm.1

/-- A Try that has Succeeded, in a synchronous execution. -/
theorem SyncRun.tried (hA : PlanTree P) {p : NodeId} {d : NodeDef Val Env} {kids : Block Val Env} (hc : Contains P (tryNode p d kids)) (hne : kids ≠ [])
    {L : List (Event Val Env)} {t : Picture} {B} (h : SyncRun P L t B) :
    ((t p).1 = .iterationEnded ∨ (t p).1 = .finished) → (t p).2.1 = .success → ∃ k ∈ kids, (t k.1).1 = .finished ∧ (t k.1).2.1 = .success := by
  have hpost : ∀ o : Obs Val Env, notT (conds P o p).post = false → ∃ k ∈ kids, nodeSucceeded k.1 o = some true := by
    intro o ho
    have hp : (conds P o p).post = evalC (tryPost (kids.map Prod.fst)) o := by
      show evalC (P.node p).post o = _
      rw [hc (p, _) (by unfold tryNode; exact List.mem_cons_self)]
    rw [hp] at ho
    match kids, hne with
    | [k], _ =>
      refine ⟨k, by simp, ?_⟩
      simp only [tryPost, List.map_cons, List.map_nil, evalC, Option.map_some, notT] at ho
      revert ho
      rcases nodeSucceeded k.1 o with _ | _ | _ <;> simp
    | k1 :: k2 :: l, _ =>
      simp only [tryPost, List.map_cons, evalC, Option.map_some, notT] at ho
      have : some true ∈ (k1.1 :: k2.1 :: l.map Prod.fst).map fun k => nodeSucceeded k o := by
        apply orAll_true.1
        revert ho
        simp only [List.map_cons]
        generalize orAll _ = y
        rcases y with _ | _ | _ <;> simp
      obtain ⟨k, h1, h2⟩ := List.mem_map.1 this
      have h1 : k ∈ (k1 :: k2 :: l).map Prod.fst := h1
      obtain ⟨x, hx, rfl⟩ := List.mem_map.1 h1
      exact ⟨x, hx, h2⟩
  have hanc : ∀ k ∈ kids, (P.node k.1).anc = p :: (P.node p).anc := fun k hk => hA.child p k.1 ((try_linked hc).child k hk)
  induction h with
  | start => simp
  | @step L o t B B' ms hr hs hnd hm ih =>
    intro he ho
    have hcon : Consistent (o.st p) (o.out p) (o.fail p) := (hr.ok p).2
    have hstay : o.st p ≠ .waiting → ∀ k ∈ kids, o.st k.1 = .finished → t k.1 = picture o k.1 := fun hw k hk e => step_finished hs (hanc k hk) e hw
    rcases step_success hs ho with ⟨e, hd, e1, e2, e3⟩ | ⟨e1, e2⟩
    · obtain ⟨_, g0, g⟩ := getDest_success hd e1
      obtain ⟨k, hk, hk1⟩ := hpost o g0
      have hk1 : o.st k.1 = .finished ∧ o.out k.1 = .success := by simpa [nodeSucceeded] using hk1
      have hw : o.st p ≠ .waiting := by
        rcases g with ⟨g, _⟩ | ⟨g, _⟩ <;> rw [g] <;> simp
      exact ⟨k, hk, by rw [hstay hw k hk hk1.1]; exact hk1⟩
    · have hprev : o.st p = .iterationEnded ∨ o.st p = .finished := by
        rw [e1] at hcon
        revert hcon
        cases o.st p <;> simp [Consistent]
      obtain ⟨k, hk, hk1, hk2⟩ := ih hprev e1
      exact ⟨k, hk, by rw [hstay (by rcases hprev with g | g <;> rw [g] <;> simp) k hk hk1]; exact ⟨hk1, hk2⟩⟩

/-- C122: if a Try Succeeded, some alternative Succeeded. -/
theorem C122_success (hN : Notifies P) (hA : PlanTree P) {ph : Phase} {s : St Val Env} (h : ReachN P ph s) (hph : ph ≠ .trans) {p : NodeId}
    {d : NodeDef Val Env} {kids : Block Val Env} (hc : Contains P (tryNode p d kids)) (hne : kids ≠ []) (hs : nodeSucceeded p s.obs = some true) :
    ∃ k ∈ kids, nodeSucceeded k.1 s.obs = some true := by
  obtain ⟨B, hB, _⟩ := (h.synced hN hA.tree).1 hph
  have hq : (picture s.obs p).1 = .finished ∧ (picture s.obs p).2.1 = .success := by simpa [nodeSucceeded, picture] using hs
  obtain ⟨k, hk, g1, g2⟩ := SyncRun.tried hA hc hne hB (.inr hq.1) hq.2
  have g1 : s.obs.st k.1 = .finished := g1
  have g2 : s.obs.out k.1 = .success := g2
  exact ⟨k, hk, by simp [nodeSucceeded, g1, g2]⟩

/-- C122: a Try does not get stuck between alternatives. When nothing is left to check and a Try with at least two alternatives is EXECUTING, no alternative but the last has Succeeded, and there is a
first alternative that is not FINISHED; if that one is not active then it is WAITING, and it is waiting for its own StartCondition, or for a mutex or a variable. -/
theorem C122_progress (hN : Notifies P) (hA : PlanTree P) {s : St Val Env} (h : ReachN P .idle s) (hr : s.cand = []) {p : NodeId} {d : NodeDef Val Env}
    {kids : Block Val Env} (hc : Contains P (tryNode p d kids)) (hlen : 2 ≤ kids.length) (hex : s.st p = .executing) :
    (∀ k ∈ kids.dropLast, nodeSucceeded k.1 s.obs = some false) ∧
    ∃ l1 b l2, kids = l1 ++ b :: l2 ∧ (∀ a ∈ l1, nodeFinished a.1 s.obs = some true) ∧ nodeFinished b.1 s.obs = some false ∧
      (Active (s.st b.1) ∨ (s.st b.1 = .waiting ∧ ((∃ f, b.2.start = some f ∧ f s.obs ≠ some true) ∨ acquiresResources P b.1 = true))) := by
  have hl := try_linked hc
  have ht : (P.node p).type = .list := by rw [hc (p, _) (by unfold tryNode; exact List.mem_cons_self)]
  have hdp := at_rest hN hA h hr (n := p) (fun _ => by rw [hex]; simp) (fun e => by rw [hex] at e; cases e)
  have hnT := (list_executing_none ht hex hdp).2.2.2.2
  have hno : ¬ Says (P.node p).endc s.obs (some true) := by
    rintro ⟨f, g1, g2⟩
    have : (conds P s.obs p).endc = some (some true) := by simp [conds, ht, g1, g2]
    rw [this] at hnT; cases hnT
  refine ⟨fun k hk => ?_, ?_⟩
  · cases hf : nodeSucceeded k.1 s.obs with
    | none => simp [nodeSucceeded] at hf
    | some v =>
      cases v with
      | false => rfl
      | true => exact absurd (try_end hc (k := k.1) (.inl ⟨by rw [← List.map_dropLast]; exact List.mem_map.2 ⟨k, hk, rfl⟩, hf⟩)) hno
  · have hnot : ¬ ∀ k ∈ kids, s.st k.1 = .finished := by
      intro hall
      have hne : kids ≠ [] := by intro e; rw [e] at hlen; simp at hlen
      refine hno (try_end hc (k := (kids.getLast hne).1) (.inr ⟨hlen, ?_, nodeFinished_iff.2 (hall _ (List.getLast_mem hne))⟩))
      rw [List.getLast?_map, List.getLast?_eq_some_getLast hne]; rfl
    obtain ⟨l1, b, l2, e, h1, h2⟩ := first_not (fun k => s.st k.1 = .finished) kids hnot
    exact ⟨l1, b, l2, e, fun a ha => nodeFinished_iff.2 (h1 a ha), by simpa [nodeFinished, St.obs] using h2, next_child hN hA h hr hl hex e h1 h2⟩

/-! ## A Try -/

set_option maxRecDepth 10000

/-- A Try (0) with three alternatives: the first Fails, the second runs until env is 1 and Succeeds. -/
def attempt : Block Int Nat := tryNode 0 (plain []) [(1, { plain [0] with post := some fun _ => some false }), (2, { plain [0] with endc := some fun o => some (o.env == 1) }), (3, plain [0])]

theorem attempt_contains : Contains (planOf attempt) attempt := planOf_contains (by decide) fun _ h => h

/-- The hypotheses of `C122_until_success` and `C122_progress` are met when the second alternative runs. -/
example : ∃ s, ReachN (planOf attempt) .idle s ∧ s.cand = [] ∧ s.st 0 = .executing ∧ ∃ o, .trans 2 .waiting .executing o ∈ s.log ∧ nodeFinished 1 o = some true ∧
    nodeSucceeded 1 o = some false := by
  obtain ⟨ph, s, h, hf⟩ := exists_runN (planOf_good attempt) [.cmd (.ext 0 [0, 1, 2, 3]), .macroStep] rfl (fun _ => 0) 0
    (fun x => (x.1, x.2.cand, x.2.st 0, x.2.log.any (goesAt 2 .waiting .executing))) (.idle, [], .executing, true) rfl
  simp only [Prod.mk.injEq] at hf
  obtain ⟨rfl, h1, h2, h3⟩ := hf
  obtain ⟨o, ho⟩ := goes_mem h3
  have := C122_until_success (planOf_notifies attempt) (planOf_tree (top := 3) rfl) h attempt_contains (l1 := [_]) (l2 := [_]) (b := (2, _)) rfl ho (.inl rfl)
  exact ⟨s, h, h1, h2, o, ho, this.1 _ rfl, this.2 _ List.mem_cons_self⟩

/-- The hypotheses of `C122_success` are met at the end; the third alternative has not run. -/
example : ∃ s, ReachN (planOf attempt) .idle s ∧ nodeSucceeded 0 s.obs = some true ∧ ¬ Started 3 s.log := by
  obtain ⟨ph, s, h, hf⟩ := exists_runN (planOf_good attempt) [.cmd (.ext 0 [0, 1, 2, 3]), .macroStep, .cmd (.ext 1 [0, 1, 2, 3]), .macroStep] rfl (fun _ => 0) 0
    (fun x => (x.1, nodeSucceeded 0 x.2.obs, startedCheck 3 x.2.log)) (.idle, some true, false) rfl
  simp only [Prod.mk.injEq] at hf
  obtain ⟨rfl, h1, h2⟩ := hf
  exact ⟨s, h, h1, fun g => by rw [startedCheck_iff.2 g] at h2; cases h2⟩

end Verif.Props.Epx
