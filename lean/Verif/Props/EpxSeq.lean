import Verif.Props.Epx
/-
C117: sequences. C118: checked sequences.
-/
set_option autoImplicit false
set_option linter.unusedSimpArgs false
namespace Verif.Props.Epx
open Verif.Node Verif.Exec Verif.Epx Verif.Props.Sync

variable {Val Env : Type} {P : Plan Val Env}

theorem unchecked_linked {p : NodeId} {d : NodeDef Val Env} {kids : Block Val Env} (h : Contains P (uncheckedSequence p d kids)) : Linked P p kids := by
  refine ⟨fun k hk => ?_, fun x hx => h x (by simp [uncheckedSequence, hx])⟩
  rw [h (p, _) (by unfold uncheckedSequence; exact List.mem_cons_self)]
  exact List.mem_map.2 ⟨k, hk, rfl⟩

theorem checked_linked {p : NodeId} {d : NodeDef Val Env} {kids : Block Val Env} (h : Contains P (checkedSequence p d kids)) : Linked P p kids := by
  refine ⟨fun k hk => ?_, fun x hx => h x (by simp [checkedSequence, hx])⟩
  rw [h (p, _) (by unfold checkedSequence; exact List.mem_cons_self)]
  exact List.mem_map.2 ⟨k, hk, rfl⟩

/-- A child that starts, or whose PreCondition is checked, was allowed to. -/
theorem start_event (hN : Notifies P) (hA : PlanTree P) {ph : Phase} {s : St Val Env} (h : ReachN P ph s) {n : NodeId} {x o}
    (he : .trans n .waiting x o ∈ s.log) (hx : x = .executing ∨ x = .iterationEnded) : MayStart P o n := by
  obtain ⟨L, t, B, B', h1, h2, h3, h4, h5⟩ := h.event hN hA.tree he
  obtain ⟨_, d, hd, e⟩ := h2.moved (k := n) (by rw [← h4, ← h3]; exact fun e => h5 e.symm)
  exact mayStart_of_executing h3.symm hd (by rw [e, ← h4]; exact hx)

/-! ## C117 -/

/-- C117: in every execution, a child of a sequence starts, or has its PreCondition checked, only when the child before it is FINISHED. -/
theorem C117_after_predecessor (hN : Notifies P) (hA : PlanTree P) {ph : Phase} {s : St Val Env} (h : ReachN P ph s) {p : NodeId}
    {d : NodeDef Val Env} {kids l1 l2 : Block Val Env} {a b : NodeId × NodeDef Val Env}
    (hc : Contains P (uncheckedSequence p d kids) ∨ Contains P (checkedSequence p d kids)) (hk : kids = l1 ++ a :: b :: l2) {x o}
    (he : .trans b.1 .waiting x o ∈ s.log) (hx : x = .executing ∨ x = .iterationEnded) : nodeFinished a.1 o = some true := by
  have hl : Linked P p kids := hc.elim unchecked_linked checked_linked
  exact nodeFinished_iff.2 (hl.starts hk (start_event hN hA h he hx).2.2.2)

/-- C117, the part that holds: one child at a time, in order. In an execution of a sequence that began with none of its children going on, and in which no transition was
made while the ExitCondition of a child was true: when a child starts, or has its PreCondition checked, all children before it are FINISHED; and in every situation
in which some node makes a transition, all children before an active child are FINISHED.
Missing (and false, see `C117_exit_refuted`): the same when a child's ExitCondition may be true. -/
theorem C117_in_order_partial (hN : Notifies P) (hA : PlanTree P) {ph : Phase} {s : St Val Env} (h : ReachN P ph s) {p : NodeId}
    {d : NodeDef Val Env} {kids l1 l2 : Block Val Env} {b : NodeId × NodeDef Val Env}
    (hc : Contains P (uncheckedSequence p d kids) ∨ Contains P (checkedSequence p d kids)) (hk : kids = l1 ++ b :: l2) {L1 m x y o}
    (he : During p (kids.map Prod.fst) s.log L1 m x y o)
    (hexit : ∀ n a b o', .trans n a b o' ∈ L1 → ∀ k ∈ kids, ¬ ToldToExit P k.1 o') :
    (m = b.1 → x = .waiting → y = .executing ∨ y = .iterationEnded → ∀ a ∈ l1, nodeFinished a.1 o = some true) ∧
    (Active (o.st b.1) → ∀ a ∈ l1, nodeFinished a.1 o = some true) := by
  have hl : Linked P p kids := hc.elim unchecked_linked checked_linked
  have hb : b.1 ∈ kids.map Prod.fst := List.mem_map.2 ⟨b, by rw [hk]; simp, rfl⟩
  obtain ⟨t, B, B', h2, h3, h4, h5, h6⟩ := h.during hN hA (U := NoExit P kids) he hexit
  rcases h6 with ⟨_, h7, _⟩ | ⟨L', h7, _⟩
  · refine ⟨?_, ?_⟩
    · rintro rfl rfl _
      rcases h7 _ hb with e | e <;> rw [← h3] at e <;> cases e
    · rintro ⟨g1, _, g2⟩
      rcases h7 _ hb with e | e
      · exact absurd e g1
      · exact absurd e g2
  · have hj := Since.inOrder hA hl (fun _ h => h) h7
    refine ⟨?_, ?_⟩
    · rintro rfl rfl hy a ha
      rw [nodeFinished_iff]
      have hmay : MayStart P o b.1 := by
        obtain ⟨_, d, hd, e⟩ := h2.moved (k := b.1) (by rw [← h4, ← h3]; exact fun e => h5 e.symm)
        exact mayStart_of_executing h3.symm hd (by rw [e, ← h4]; exact hy)
      rcases List.eq_nil_or_concat l1 with rfl | ⟨l1', a', rfl⟩
      · cases ha
      · have hp : o.st a'.1 = .finished := hl.starts (l1 := l1') (a := a') (b := b) (l2 := l2) (by rw [hk]; simp) hmay.2.2.2
        rcases hj l1' a' (b :: l2) (by rw [hk]; simp) with ⟨i1, _⟩ | i | i
        · exact absurd i1 (by show ¬ (o.st a'.1 = _ ∨ o.st a'.1 = _); rw [hp]; simp)
        · rcases List.mem_append.1 (by simpa using ha : a ∈ l1' ++ [a']) with ha | ha
          · exact i a ha
          · rw [show a = a' by simpa using ha]; exact hp
        · have : o.st b.1 = .finished := i b (by simp)
          rw [← h3] at this; cases this
    · rintro ⟨g1, g2, g3⟩ a ha
      rw [nodeFinished_iff]
      rcases hj l1 b l2 hk with ⟨i1, _⟩ | i | i
      · rcases i1 with e | e
        · exact absurd e g1
        · exact absurd e g2
      · exact i a ha
      · exact absurd (i b (by simp)) g3

/-- C117, the same for the present situation. -/
theorem C117_one_at_a_time_partial (hN : Notifies P) (hA : PlanTree P) {ph : Phase} {s : St Val Env} (h : ReachN P ph s) (hp : ph ≠ .trans) {p : NodeId}
    {d : NodeDef Val Env} {kids l1 l2 : Block Val Env} {b : NodeId × NodeDef Val Env}
    (hc : Contains P (uncheckedSequence p d kids) ∨ Contains P (checkedSequence p d kids)) (hk : kids = l1 ++ b :: l2) {L1}
    (he : Ongoing p (kids.map Prod.fst) s.log L1)
    (hexit : ∀ n a b o', .trans n a b o' ∈ L1 → ∀ k ∈ kids, ¬ ToldToExit P k.1 o') :
    Active (s.st b.1) → ∀ a ∈ l1, nodeFinished a.1 s.obs = some true := by
  have hl : Linked P p kids := hc.elim unchecked_linked checked_linked
  obtain ⟨L', B, h7, _⟩ := h.sinceNow hN hA hp (U := NoExit P kids) he hexit
  rintro ⟨g1, g2, g3⟩ a ha
  rw [nodeFinished_iff]
  rcases Since.inOrder hA hl (fun _ h => h) h7 l1 b l2 hk with ⟨i1, _⟩ | i | i
  · rcases i1 with e | e
    · exact absurd e g1
    · exact absurd e g2
  · exact i a ha
  · exact absurd (i b (by simp)) g3

/-- A node with nothing left to do when nothing is left to check, unless it is waiting for a mutex or a variable. -/
theorem at_rest (hN : Notifies P) (hA : PlanTree P) {s : St Val Env} (h : ReachN P .idle s) (hc : s.cand = []) {n : NodeId}
    (hroot : (P.node n).anc = [] → s.st n ≠ .inactive) (hw : s.st n = .waiting → acquiresResources P n = false) : decideNext P s.obs n = none := by
  obtain ⟨hI, hid, _⟩ := h.reach.inv
  refine Classical.byContradiction fun hd => ?_
  obtain ⟨h1, h2⟩ := (h.dinv hN hA.tree).stuck hI (hid rfl) hc hroot hd
  rw [hw h1] at h2; cases h2

/-- A list does not rest in EXECUTING when its end condition is true. -/
theorem list_executing_none {o : Obs Val Env} {p : NodeId} (ht : (P.node p).type = .list) (he : o.st p = .executing) (hd : decideNext P o p = none) :
    isT (conds P o p).ancExit = false ∧ isT (conds P o p).exit = false ∧ isF (conds P o p).ancInv = false ∧ isF (conds P o p).inv = false ∧
      notT (conds P o p).endc = true := by
  unfold decideNext at hd
  rw [he, ht] at hd
  simp only [getDest, fromExecuting, abnormal] at hd
  revert hd
  generalize conds P o p = k
  cases isT k.ancExit <;> cases isT k.exit <;> cases isF k.ancInv <;> cases isF k.inv <;> cases notT k.endc <;> simp

theorem first_not {α : Type} (q : α → Prop) (l : List α) (h : ¬ ∀ x ∈ l, q x) : ∃ l1 b l2, l = l1 ++ b :: l2 ∧ (∀ a ∈ l1, q a) ∧ ¬ q b := by
  induction l with
  | nil => exact absurd (fun x hx => by cases hx) h
  | cons x l ih =>
    by_cases hx : q x
    · obtain ⟨l1, b, l2, e, h1, h2⟩ := ih (fun hl => h fun y hy => (List.mem_cons.1 hy).elim (fun e => e ▸ hx) (hl y))
      exact ⟨x :: l1, b, l2, by rw [e]; rfl, fun a ha => (List.mem_cons.1 ha).elim (fun e => e ▸ hx) (h1 a), h2⟩
    · exact ⟨[], x, l, rfl, (fun a ha => by cases ha), hx⟩

/-- What the first child that is not FINISHED is doing when nothing is left to check. -/
theorem next_child (hN : Notifies P) (hA : PlanTree P) {s : St Val Env} (h : ReachN P .idle s) (hr : s.cand = []) {p : NodeId} {kids : Block Val Env}
    (hl : Linked P p kids) (hex : s.st p = .executing) {l1 b l2} (e : kids = l1 ++ b :: l2) (h1 : ∀ a ∈ l1, s.st a.1 = .finished) (h2 : s.st b.1 ≠ .finished) :
    Active (s.st b.1) ∨ (s.st b.1 = .waiting ∧ ((∃ f, b.2.start = some f ∧ f s.obs ≠ some true) ∨ acquiresResources P b.1 = true)) := by
  have hb : b ∈ kids := by rw [e]; simp
  have hanc := hA.child p b.1 (hl.child b hb)
  have hni : s.st b.1 ≠ .inactive := by
    intro hi
    have := at_rest hN hA h hr (n := b.1) (fun e => by rw [hanc] at e; cases e) (fun e => by rw [hi] at e; cases e)
    rw [decide_inactive hanc hi, if_neg (by show s.st p ≠ _; rw [hex]; simp), if_pos (show s.obs.st p = .executing from hex)] at this
    split at this <;> cases this
  by_cases hw : s.st b.1 = .waiting
  · right
    refine ⟨hw, ?_⟩
    by_cases hres : acquiresResources P b.1 = true
    · exact .inr hres
    · left
      have := at_rest hN hA h hr (n := b.1) (fun e => by rw [hanc] at e; cases e) (fun _ => by simpa using hres)
      rcases decide_waiting (P := P) (o := s.obs) hw with ⟨_, g⟩ | ⟨_, _, _, ⟨⟨f, g1, g2⟩, _⟩ | ⟨_, ⟨_, g⟩ | ⟨_, g⟩⟩⟩
      · rw [g] at this; cases this
      · have hdef := hl.link _ (by rw [e]; exact linkChildren_mem none l1 b l2)
        simp only at hdef
        rcases List.eq_nil_or_concat l1 with rfl | ⟨l1', a', rfl⟩
        · simp [linkage] at hdef; rw [hdef] at g1; exact ⟨f, g1, g2⟩
        · simp [linkage] at hdef
          rw [hdef] at g1
          have hfin : s.obs.st a'.1 = .finished := h1 a' (by simp)
          have hnf : nodeFinished a'.1 s.obs = some true := nodeFinished_iff.2 hfin
          cases hb2 : b.2.start with
          | none => rw [hb2] at g1; simp only [orderedStart, Option.some.injEq] at g1; subst g1; exact absurd hnf g2
          | some f' =>
            rw [hb2] at g1; simp only [orderedStart, Option.some.injEq] at g1; subst g1
            refine ⟨f', rfl, fun hf' => g2 ?_⟩
            simp [hnf, hf', and3]
      · rw [g] at this; cases this
      · rw [g] at this; cases this
  · left; exact ⟨hni, hw, h2⟩

/-- C117: a sequence does not get stuck between children. When nothing is left to check and a sequence without EndCondition of its own is EXECUTING, there is a first child that is not
FINISHED; if that child is not active then it is WAITING, and it is waiting for its own StartCondition, or for a mutex or a variable. -/
theorem C117_progress (hN : Notifies P) (hA : PlanTree P) {s : St Val Env} (h : ReachN P .idle s) (hr : s.cand = []) {p : NodeId} {d : NodeDef Val Env}
    {kids : Block Val Env} (hc : Contains P (uncheckedSequence p d kids) ∨ Contains P (checkedSequence p d kids)) (hend : d.endc = none)
    (hex : s.st p = .executing) :
    ∃ l1 b l2, kids = l1 ++ b :: l2 ∧ (∀ a ∈ l1, nodeFinished a.1 s.obs = some true) ∧ nodeFinished b.1 s.obs = some false ∧
      (Active (s.st b.1) ∨ (s.st b.1 = .waiting ∧ ((∃ f, b.2.start = some f ∧ f s.obs ≠ some true) ∨ acquiresResources P b.1 = true))) := by
  have hl : Linked P p kids := hc.elim unchecked_linked checked_linked
  have hp : (P.node p).type = .list ∧ (P.node p).children = kids.map Prod.fst ∧ (P.node p).endc = none := by
    rcases hc with hc | hc
    · rw [hc (p, _) (by unfold uncheckedSequence; exact List.mem_cons_self)]; exact ⟨rfl, rfl, hend⟩
    · rw [hc (p, _) (by unfold checkedSequence; exact List.mem_cons_self)]; exact ⟨rfl, rfl, hend⟩
  have hdp := at_rest hN hA h hr (n := p) (fun _ => by rw [hex]; simp) (fun e => by rw [hex] at e; cases e)
  have hne := (list_executing_none hp.1 hex hdp).2.2.2.2
  have hnot : ¬ ∀ k ∈ kids, s.st k.1 = .finished := by
    intro hall
    have : (conds P s.obs p).endc = some (some true) := by
      have : allFinished s.obs (kids.map Prod.fst) = true := by
        unfold allFinished; rw [List.all_eq_true]; intro k hk; obtain ⟨x, hx, rfl⟩ := List.mem_map.1 hk; simpa [St.obs] using hall x hx
      simp [conds, hp, this]
    rw [this] at hne; cases hne
  obtain ⟨l1, b, l2, e, h1, h2⟩ := first_not (fun k => s.st k.1 = .finished) kids hnot
  refine ⟨l1, b, l2, e, fun a ha => nodeFinished_iff.2 (h1 a ha), by simpa [nodeFinished, St.obs] using h2, next_child hN hA h hr hl hex e h1 h2⟩

/-! ## C118: checked sequences -/

theorem noChildFailed_iff {kids : List NodeId} {o : Obs Val Env} :
    noChildFailed kids o = some false ↔ ∃ k ∈ kids, o.st k = .finished ∧ o.out k = .failure := by
  simp [noChildFailed]

theorem checked_inv {p : NodeId} {d : NodeDef Val Env} {kids : Block Val Env} (hc : Contains P (checkedSequence p d kids)) {o : Obs Val Env} {k : NodeId}
    (hk : k ∈ kids.map Prod.fst) (hf : nodeFailed k o = some true) : Says (P.node p).inv o (some false) := by
  have hn : noChildFailed (kids.map Prod.fst) o = some false := noChildFailed_iff.2 ⟨k, hk, by simpa [nodeFailed] using hf⟩
  rw [hc (p, _) (by unfold checkedSequence; exact List.mem_cons_self)]
  simp only [successInvariant]
  cases d.inv with
  | none => exact ⟨_, rfl, hn⟩
  | some c =>
    refine ⟨_, rfl, ?_⟩
    simp only [hn]
    rcases c o with _ | _ | _ <;> rfl

/-- A list that must fail when a child of it has Failed. -/
structure Watched (P : Plan Val Env) (p : NodeId) (kids : List NodeId) : Prop where
  type : (P.node p).type = .list
  sub : (P.node p).children = kids
  inv : ∀ o k, k ∈ kids → nodeFailed k o = some true → Says (P.node p).inv o (some false)

theorem checked_watched {p : NodeId} {d : NodeDef Val Env} {kids : Block Val Env} (hc : Contains P (checkedSequence p d kids)) : Watched P p (kids.map Prod.fst) :=
  ⟨by rw [hc (p, _) (by unfold checkedSequence; exact List.mem_cons_self)], by rw [hc (p, _) (by unfold checkedSequence; exact List.mem_cons_self)],
    fun _ _ hk hf => checked_inv hc hk hf⟩

theorem Watched.no_start {p : NodeId} {kids : List NodeId} (hw : Watched P p kids) (hN : Notifies P) (hA : PlanTree P) {ph : Phase} {s : St Val Env} (h : ReachN P ph s)
    {b k : NodeId} (hb : b ∈ kids) (hk : k ∈ kids) {x o}
    (he : .trans b .waiting x o ∈ s.log) (hx : x = .executing ∨ x = .iterationEnded) : nodeFailed k o = some false := by
  have hm := start_event hN hA h he hx
  cases hf : nodeFailed k o with
  | none => simp [nodeFailed] at hf
  | some v =>
    cases v with
    | false => rfl
    | true =>
      have hanc := hA.child p b (by rw [hw.sub]; exact hb)
      exact absurd ⟨p, by rw [hanc]; simp, .inr (.inl (hw.inv o k hk hf))⟩ hm.1

/-- C118: no child of a checked sequence starts, or has its PreCondition checked, when a child has Failed. -/
theorem C118_no_start (hN : Notifies P) (hA : PlanTree P) {ph : Phase} {s : St Val Env} (h : ReachN P ph s) {p : NodeId}
    {d : NodeDef Val Env} {kids : Block Val Env} (hc : Contains P (checkedSequence p d kids)) {b k : NodeId} (hb : b ∈ kids.map Prod.fst)
    (hk : k ∈ kids.map Prod.fst) {x o}
    (he : .trans b .waiting x o ∈ s.log) (hx : x = .executing ∨ x = .iterationEnded) : nodeFailed k o = some false :=
  (checked_watched hc).no_start hN hA h hb hk he hx

/-- The invariant: a list with default end condition that is ending normally has all children FINISHED; and, in a watched list, none Failed if it succeeded. -/
theorem SyncRun.watched (hA : PlanTree P) {p : NodeId} {kids : List NodeId} (hc : Watched P p kids) (hend : (P.node p).endc = none) {L : List (Event Val Env)} {t : Picture} {B} (h : SyncRun P L t B) :
    ((t p).1 = .finishing → ∀ k ∈ kids, (t k).1 = .finished) ∧
    (((t p).1 = .iterationEnded ∨ (t p).1 = .finished) → (t p).2.1 = .success → ∀ k ∈ kids, (t k).1 = .finished ∧ (t k).2.1 ≠ .failure) := by
  have hp : (P.node p).type = .list ∧ (P.node p).children = kids ∧ (P.node p).endc = none := by
    exact ⟨hc.type, hc.sub, hend⟩
  have hanc : ∀ k ∈ kids, (P.node k).anc = p :: (P.node p).anc := fun k hk => hA.child p k (by rw [hc.sub]; exact hk)
  induction h with
  | start => exact ⟨by simp, by simp⟩
  | @step L o t B B' ms hr hs hnd hm ih =>
    have hcon : Consistent (o.st p) (o.out p) (o.fail p) := (hr.ok p).2
    have hstay : o.st p ≠ .waiting → ∀ k ∈ kids, o.st k = .finished → t k = picture o k := fun hw k hk e => step_finished hs (hanc k hk) e hw
    refine ⟨fun hf k hk => ?_, fun he ho k hk => ?_⟩
    · by_cases hsame : (t p).1 = o.st p
      · have hw : o.st p = .finishing := hsame ▸ hf
        rw [hstay (by rw [hw]; simp) k hk (ih.1 hw k hk)]; exact ih.1 hw k hk
      · obtain ⟨_, e, hd, he⟩ := hs.moved hsame
        rw [hf] at he
        have hex : o.st p = .executing ∧ notT (conds P o p).endc = false := by
          unfold decideNext at hd
          rw [hp.1] at hd
          revert hd he
          cases o.st p with
          | executing =>
            simp only [getDest, fromExecuting, abnormal]
            generalize conds P o p = c
            cases isT c.ancExit <;> cases isT c.exit <;> cases isF c.ancInv <;> cases isF c.inv <;> cases notT c.endc <;> simp <;> rintro rfl <;> simp
          | inactive =>
            simp only [getDest, fromInactive]; intro hd he; exfalso; revert hd
            repeat' split
            all_goals first | (rintro ⟨⟩; cases he) | simp
          | waiting =>
            simp only [getDest, fromWaiting]; intro hd he; exfalso; revert hd
            repeat' split
            all_goals first | (rintro ⟨⟩; cases he) | simp
          | finishing => simp only [getDest]; intro hd he; rcases fromFinishing_dest hd with g | g <;> rw [g] at he <;> cases he
          | failing =>
            simp only [getDest, fromFailing]; intro hd he; exfalso; revert hd
            repeat' split
            all_goals first | (rintro ⟨⟩; cases he) | simp
          | finished =>
            simp only [getDest, fromFinished]; intro hd he; exfalso; revert hd
            repeat' split
            all_goals first | (rintro ⟨⟩; cases he) | simp
          | iterationEnded =>
            simp only [getDest, fromIterationEnded]; intro hd he; exfalso; revert hd
            repeat' split
            all_goals first | (rintro ⟨⟩; cases he) | simp
        have hall : allFinished o kids = true := by
          have := hex.2
          simp only [conds, hp, notT] at this
          simpa using this
        have hk1 : o.st k = .finished := by
          unfold allFinished at hall
          simpa using List.all_eq_true.1 hall k hk
        rw [hstay (by rw [hex.1]; simp) k hk hk1]; exact hk1
    · rcases step_success hs ho with ⟨e, hd, e1, e2, e3⟩ | ⟨e1, e2⟩
      · obtain ⟨_, _, g⟩ := getDest_success hd e1
        rcases g with ⟨_, g | g | g⟩ | ⟨g1, _, g2, _, _, _, g3⟩
        · rw [hp.1] at g; cases g
        · rw [hp.1] at g; cases g
        · rw [hp.1] at g; cases g
        · have hk1 := ih.1 g1 k hk
          rw [hstay (by rw [g1]; simp) k hk hk1]
          refine ⟨hk1, fun hfail => ?_⟩
          have : nodeFailed k o = some true := by
            simp only [nodeFailed, Option.some.injEq, Bool.and_eq_true, beq_iff_eq]; exact ⟨hk1, hfail⟩
          have := isF_says.2 (hc.inv o k hk this)
          rw [show (conds P o p).inv = evalC (P.node p).inv o from rfl, this] at g3; cases g3
      · have hprev : o.st p = .iterationEnded ∨ o.st p = .finished := by
          rw [e1] at hcon
          revert hcon
          cases o.st p <;> simp [Consistent]
        obtain ⟨hk1, hk2⟩ := ih.2 hprev e1 k hk
        rw [hstay (by rcases hprev with g | g <;> rw [g] <;> simp) k hk hk1]; exact ⟨hk1, hk2⟩

/-- If a watched list without EndCondition of its own Succeeded, all its children are FINISHED and none Failed. -/
theorem Watched.success {p : NodeId} {kids : List NodeId} (hc : Watched P p kids) (hN : Notifies P) (hA : PlanTree P) {ph : Phase} {s : St Val Env} (h : ReachN P ph s) (hph : ph ≠ .trans)
    (hend : (P.node p).endc = none) (hs : nodeSucceeded p s.obs = some true) :
    ∀ k ∈ kids, nodeFinished k s.obs = some true ∧ nodeFailed k s.obs = some false := by
  obtain ⟨B, hB, _⟩ := (h.synced hN hA.tree).1 hph
  have hq : (picture s.obs p).1 = .finished ∧ (picture s.obs p).2.1 = .success := by simpa [nodeSucceeded, picture] using hs
  intro k hk
  obtain ⟨g1, g2⟩ := (SyncRun.watched hA hc hend hB).2 (.inr hq.1) hq.2 k hk
  have g1 : s.obs.st k = .finished := g1
  have g2 : s.obs.out k ≠ .failure := g2
  exact ⟨nodeFinished_iff.2 g1, by simp [nodeFailed, g2]⟩

/-- C118: if a checked sequence without EndCondition of its own Succeeded, all its children are FINISHED and none Failed. -/
theorem C118_success (hN : Notifies P) (hA : PlanTree P) {ph : Phase} {s : St Val Env} (h : ReachN P ph s) (hph : ph ≠ .trans) {p : NodeId}
    {d : NodeDef Val Env} {kids : Block Val Env} (hc : Contains P (checkedSequence p d kids)) (hend : d.endc = none)
    (hs : nodeSucceeded p s.obs = some true) :
    ∀ k ∈ kids.map Prod.fst, nodeFinished k s.obs = some true ∧ nodeFailed k s.obs = some false :=
  (checked_watched hc).success hN hA h hph (by rw [hc (p, _) (by unfold checkedSequence; exact List.mem_cons_self)]; exact hend) hs

/-- What a watched list does when a child has Failed. -/
theorem Watched.fails {p : NodeId} {kids : List NodeId} (hc : Watched P p kids) (hN : Notifies P) (hA : PlanTree P) {k : NodeId} (hk : k ∈ kids) :
    (∀ s, ReachN P .idle s → s.cand = [] → nodeFailed k s.obs = some true → s.st p ≠ .executing ∧ s.st p ≠ .finishing) ∧
    (∀ ph s, ReachN P ph s → ∀ a b o, .trans p a b o ∈ s.log → nodeFailed k o = some true → a = .executing ∨ a = .finishing → b = .failing) := by
  have ht := hc.type
  have key : ∀ o : Obs Val Env, nodeFailed k o = some true → o.st p = .executing ∨ o.st p = .finishing →
      ∃ e, decideNext P o p = some e ∧ e.state = .failing := by
    intro o hf hst
    have hi : isF (conds P o p).inv = true := isF_says.2 (hc.inv o k hk hf)
    unfold decideNext
    rw [ht]
    revert hi
    generalize conds P o p = c
    intro hi
    rcases hst with e | e <;> rw [e] <;> simp only [getDest, fromExecuting, fromFinishing, abnormal, hi] <;>
      cases isT c.ancExit <;> cases isT c.exit <;> cases isF c.ancInv <;> simp
  refine ⟨fun s h hr hf => ?_, fun ph s h a b o he hf ha => ?_⟩
  · have : ¬ (s.st p = .executing ∨ s.st p = .finishing) := by
      intro hst
      obtain ⟨e, he, _⟩ := key s.obs hf hst
      have := at_rest hN hA h hr (n := p) (fun _ => by rcases hst with e | e <;> rw [e] <;> simp)
        (fun e => by rcases hst with e' | e' <;> rw [e] at e' <;> cases e')
      rw [this] at he; cases he
    exact ⟨fun e => this (.inl e), fun e => this (.inr e)⟩
  · obtain ⟨L, t, B, B', h1, h2, h3, h4, h5⟩ := h.event hN hA.tree he
    obtain ⟨e, g1, g2⟩ := key o hf (by rw [← h3]; exact ha)
    obtain ⟨_, e', g3, g4⟩ := h2.moved (k := p) (by rw [← h4, ← h3]; exact fun e => h5 e.symm)
    rw [g1] at g3; cases g3; rw [h4, ← g4, g2]

/-- C118: when a child has Failed, the sequence does not go on. When nothing is left to check, a checked sequence with a Failed child is neither EXECUTING nor FINISHING; and a
transition it makes in such a situation from one of these states is to FAILING. -/
theorem C118_fails (hN : Notifies P) (hA : PlanTree P) {p : NodeId} {d : NodeDef Val Env} {kids : Block Val Env}
    (hc : Contains P (checkedSequence p d kids)) {k : NodeId} (hk : k ∈ kids.map Prod.fst) :
    (∀ s, ReachN P .idle s → s.cand = [] → nodeFailed k s.obs = some true → s.st p ≠ .executing ∧ s.st p ≠ .finishing) ∧
    (∀ ph s, ReachN P ph s → ∀ a b o, .trans p a b o ∈ s.log → nodeFailed k o = some true → a = .executing ∨ a = .finishing → b = .failing) :=
  (checked_watched hc).fails hN hA hk

/-! ## A sequence -/

set_option maxRecDepth 10000

/-- A checked sequence (0) of three Empty nodes: the first runs until env is 1; the second starts when env is 2 and has ExitCondition "env is 3"; the third
runs until env is 4, and has a PostCondition that is then false. -/
def three : Block Int Nat := checkedSequence 0 { type := .list, rhs := fun _ => 0 }
  [(1, { type := .empty, anc := [0], rhs := fun _ => 0, endc := some fun o => some (o.env == 1) }),
   (2, { type := .empty, anc := [0], rhs := fun _ => 0, start := some fun o => some (o.env == 2), exit := some fun o => some (o.env == 3) }),
   (3, { type := .empty, anc := [0], rhs := fun _ => 0, endc := some fun o => some (o.env == 4), post := some fun o => some (o.env == 0) })]

theorem three_tree : PlanTree (planOf three) := planOf_tree (top := 3) rfl

theorem three_contains : Contains (planOf three) three := planOf_contains (by decide) fun _ h => h

theorem three_exit {o : Obs Int Nat} (h : o.env ≠ 3) (k : NodeId) (hk : k ∈ [1, 2, 3]) : ¬ ToldToExit (planOf three) k o := by
  rintro ⟨c, h1, h2⟩
  simp only [List.mem_cons, List.not_mem_nil, or_false] at hk
  rcases hk with rfl | rfl | rfl
  · rw [three_contains (1, _) (by simp [three, checkedSequence, linkChildren]; rfl)] at h1; cases h1
  · rw [three_contains (2, _) (by simp [three, checkedSequence, linkChildren]; rfl)] at h1; cases h1; simp [h] at h2
  · rw [three_contains (3, _) (by simp [three, checkedSequence, linkChildren]; rfl)] at h1; cases h1

/-- The hypotheses of `C117_in_order_partial` are met by the start of the third child. -/
example : ∃ s, ReachN (planOf three) .idle s ∧ ∃ L1 o, During 0 [1, 2, 3] s.log L1 3 .waiting .executing o ∧
    (∀ n a b o', .trans n a b o' ∈ L1 → ∀ k ∈ [1, 2, 3], ¬ ToldToExit (planOf three) k o') ∧
    nodeFinished 1 o = some true ∧ nodeFinished 2 o = some true := by
  obtain ⟨ph, s, h, hf⟩ := exists_runN (planOf_good three)
    [.cmd (.ext 0 [0, 1, 2, 3]), .macroStep, .cmd (.ext 1 [0, 1, 2, 3]), .macroStep, .cmd (.ext 2 [0, 1, 2, 3]), .macroStep] rfl (fun _ => 0) 0
    (fun x => (x.1, duringCheck 0 [1, 2, 3] 3 .waiting .executing 1 14 x.2.log, x.2.log.all fun | .trans _ _ _ o => o.env != 3 | _ => true))
    (.idle, true, true) rfl
  simp only [Prod.mk.injEq] at hf
  obtain ⟨rfl, h1, h2⟩ := hf
  obtain ⟨o, ho⟩ := duringCheck_spec h1
  have hexit : ∀ n a b o', .trans n a b o' ∈ (s.log.drop 2).take 14 → ∀ k ∈ [1, 2, 3], ¬ ToldToExit (planOf three) k o' := by
    intro n a b o' hx k hk
    have := List.all_eq_true.1 h2 _ (List.mem_of_mem_drop (List.mem_of_mem_take hx))
    exact three_exit (by simpa using this) k hk
  have := (C117_in_order_partial (planOf_notifies three) three_tree h (l1 := _ :: [_]) (l2 := []) (.inr three_contains) rfl ho (by
    intro n a b o' hx k hk
    exact hexit n a b o' hx k.1 (by simp at hk; rcases hk with rfl | rfl | rfl <;> simp))).1 rfl rfl (.inl rfl)
  exact ⟨s, h, _, o, ho, hexit, this _ (by simp; left; rfl), this _ (by simp; right; rfl)⟩

/-- C117 is false if a child's ExitCondition may be true: the second child, still WAITING, is skipped because its ExitCondition is true, and the third starts although
the first is still EXECUTING. (`NodeImpl.cc` `getDestStateFromWaiting` looks at the ExitCondition before the StartCondition, and the translator adds the
order to Start and Skip conditions only, `sequences.xsl:124-208`.) -/
theorem C117_exit_refuted : Notifies (planOf three) ∧ PlanTree (planOf three) ∧ Contains (planOf three) three ∧ ∃ s, ReachN (planOf three) .idle s ∧
    s.cand = [] ∧ s.st 1 = .executing ∧ s.st 2 = .finished ∧ s.st 3 = .executing := by
  refine ⟨planOf_notifies three, three_tree, three_contains, ?_⟩
  obtain ⟨ph, s, h, hf⟩ := exists_runN (planOf_good three)
    [.cmd (.ext 0 [0, 1, 2, 3]), .macroStep, .cmd (.ext 3 [0, 1, 2, 3]), .macroStep] rfl (fun _ => 0) 0
    (fun x => (x.1, x.2.cand, x.2.st 1, x.2.st 2, x.2.st 3)) (.idle, [], .executing, .finished, .executing) rfl
  simp only [Prod.mk.injEq] at hf
  obtain ⟨rfl, h1, h2, h3, h4⟩ := hf
  exact ⟨s, h, h1, h2, h3, h4⟩

/-- The hypotheses of `C117_progress` are met while the second child waits for its own StartCondition. -/
example : ∃ s, ReachN (planOf three) .idle s ∧ s.cand = [] ∧ s.st 0 = .executing ∧ s.st 1 = .finished ∧ s.st 2 = .waiting ∧ s.st 3 = .waiting := by
  obtain ⟨ph, s, h, hf⟩ := exists_runN (planOf_good three)
    [.cmd (.ext 0 [0, 1, 2, 3]), .macroStep, .cmd (.ext 1 [0, 1, 2, 3]), .macroStep] rfl (fun _ => 0) 0
    (fun x => (x.1, x.2.cand, x.2.st 0, x.2.st 1, x.2.st 2, x.2.st 3)) (.idle, [], .executing, .finished, .waiting, .waiting) rfl
  simp only [Prod.mk.injEq] at hf
  obtain ⟨rfl, h1, h2, h3, h4, h5⟩ := hf
  exact ⟨s, h, h1, h2, h3, h4, h5⟩

/-- C118: the third child Fails, the sequence goes from EXECUTING to FAILING and Fails. -/
example : ∃ s, ReachN (planOf three) .idle s ∧ s.cand = [] ∧ nodeFailed 3 s.obs = some true ∧ nodeFailed 0 s.obs = some true ∧
    ∃ o, .trans 0 .executing .failing o ∈ s.log := by
  obtain ⟨ph, s, h, hf⟩ := exists_runN (planOf_good three)
    [.cmd (.ext 0 [0, 1, 2, 3]), .macroStep, .cmd (.ext 1 [0, 1, 2, 3]), .macroStep, .cmd (.ext 2 [0, 1, 2, 3]), .macroStep,
      .cmd (.ext 4 [0, 1, 2, 3]), .macroStep] rfl (fun _ => 0) 0
    (fun x => (x.1, x.2.cand, nodeFailed 3 x.2.obs, nodeFailed 0 x.2.obs, x.2.log.any (goesAt 0 .executing .failing)))
    (.idle, [], some true, some true, true) rfl
  simp only [Prod.mk.injEq] at hf
  obtain ⟨rfl, h1, h2, h3, h4⟩ := hf
  obtain ⟨e, he1, he2⟩ := List.any_eq_true.1 h4
  obtain ⟨o, rfl⟩ := goesAt_spec he2
  exact ⟨s, h, h1, h2, h3, o, he1⟩

/-- C118: a sequence of two Empty nodes Succeeds. -/
example : ∃ s, ReachN (planOf (checkedSequence 0 { type := .list, rhs := fun _ => 0 }
      [(1, { type := .empty, anc := [0], rhs := fun _ => 0 }), (2, { type := .empty, anc := [0], rhs := fun _ => 0 })])) .idle s ∧
    nodeSucceeded 0 s.obs = some true := by
  obtain ⟨ph, s, h, hf⟩ := exists_runN (planOf_good (checkedSequence 0 { type := .list, rhs := fun _ => 0 }
      [(1, { type := .empty, anc := [0], rhs := fun _ => 0 }), (2, { type := .empty, anc := [0], rhs := fun _ => 0 })]))
    [.cmd (.ext 0 [0, 1, 2]), .macroStep] rfl (fun _ => 0) 0
    (fun x => (x.1, nodeSucceeded 0 x.2.obs)) (.idle, some true) rfl
  simp only [Prod.mk.injEq] at hf
  obtain ⟨rfl, h1⟩ := hf
  exact ⟨s, h, h1⟩

/-- C116: the first child Succeeded, the PostCondition of the third failed. -/
example : ∃ s, ReachN (planOf three) .idle s ∧ nodeSucceeded 1 s.obs = some true ∧ nodePostconditionFailed 3 s.obs = some true := by
  obtain ⟨ph, s, h, hf⟩ := exists_runN (planOf_good three)
    [.cmd (.ext 0 [0, 1, 2, 3]), .macroStep, .cmd (.ext 1 [0, 1, 2, 3]), .macroStep, .cmd (.ext 2 [0, 1, 2, 3]), .macroStep,
      .cmd (.ext 4 [0, 1, 2, 3]), .macroStep] rfl (fun _ => 0) 0
    (fun x => (x.1, nodeSucceeded 1 x.2.obs, nodePostconditionFailed 3 x.2.obs)) (.idle, some true, some true) rfl
  simp only [Prod.mk.injEq] at hf
  obtain ⟨rfl, h1, h2⟩ := hf
  exact ⟨s, h, h1, h2⟩

end Verif.Props.Epx
