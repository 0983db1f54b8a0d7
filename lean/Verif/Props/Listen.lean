import Verif.Listen.Spec
import Verif.Props.Text
set_option autoImplicit false
/-!
C89, C90: reports to listeners.
-/
namespace Verif.Listen
open Verif.Text (NState parseState stateName)

section
variable {N A P : Type}

theorem transitions_told (l : Listener N A P) (ts : List (Tr N)) :
    l.transitions ts = { l with told := l.told ++ (ts.map Report.transition).filter (passes l.filter) } := by
  unfold Listener.transitions
  cases hf : l.filter with
  | none =>
    have : (ts.map Report.transition).filter (passes (none : Option (Filter N A P))) = ts.map .transition := by
      rw [List.filter_eq_self]; intro a _; rfl
    simp [this]
  | some f =>
    have : (ts.map Report.transition).filter (passes (some f)) = (ts.filter f.transition).map .transition := by
      rw [List.filter_map]; rfl
    simp [this]

theorem assignment_told (l : Listener N A P) (a : A) :
    l.assignment a = { l with told := l.told ++ ([Report.assignment a]).filter (passes l.filter) } := by
  obtain ⟨fl, told⟩ := l
  cases fl with
  | none => rfl
  | some f => by_cases h : f.assignment a = true <;> simp [Listener.assignment, passes, h]

theorem plan_told (l : Listener N A P) (p : P) :
    l.plan p = { l with told := l.told ++ ([Report.plan p]).filter (passes l.filter) } := by
  obtain ⟨fl, told⟩ := l
  cases fl with
  | none => rfl
  | some f => by_cases h : f.plan p = true <;> simp [Listener.plan, passes, h]

theorem assignments_told (as : List A) : ∀ (l : Listener N A P),
    as.foldl Listener.assignment l = { l with told := l.told ++ (as.map Report.assignment).filter (passes l.filter) } := by
  induction as with
  | nil => intro l; simp
  | cons a as ih =>
    intro l
    rw [List.foldl_cons, assignment_told, ih]
    rw [show (a :: as).map (Report.assignment (N := N) (P := P)) = [Report.assignment a] ++ as.map Report.assignment from rfl, List.filter_append, List.append_assoc]

theorem flush_told (h : Hub N A P) (l : Listener N A P) :
    h.flush l = { l with told := l.told ++ (h.transitions.map Report.transition ++ h.assignments.map Report.assignment).filter (passes l.filter) } := by
  unfold Hub.flush
  rw [transitions_told, assignments_told, List.filter_append, List.append_assoc]

/-- A listener of the hub stays at its place and keeps its filter. -/
theorem keeps (h : Hub N A P) (i : Nat) (l : Listener N A P) (hl : h.listeners[i]? = some l) (ev : Ev N A P) :
    ∃ l', (h.step ev).listeners[i]? = some l' ∧ l'.filter = l.filter := by
  cases ev with
  | transitions ts => exact ⟨l, hl, rfl⟩
  | assignment a => exact ⟨l, hl, rfl⟩
  | plan p => exact ⟨l.plan p, by simp [Hub.step, hl], by rw [plan_told]⟩
  | stepComplete => exact ⟨h.flush l, by simp [Hub.step, hl], by rw [flush_told]⟩
  | addListener f =>
    have : i < h.listeners.length := by
      rcases Nat.lt_or_ge i h.listeners.length with h1 | h1
      · exact h1
      · rw [List.getElem?_eq_none h1] at hl; cases hl
    exact ⟨l, by simp [Hub.step, List.getElem?_append_left this, hl], rfl⟩

/-- The transitions, the assignments, the plans among reports, of one kind `k`. -/
theorem filter_comm (k q : Report N A P → Bool) (l : List (Report N A P)) : (l.filter q).filter k = (l.filter k).filter q := by
  rw [List.filter_filter, List.filter_filter]; congr 1; funext x; exact Bool.and_comm _ _

theorem kind_invariant (k : Report N A P → Bool)
    (hk : k = Report.isTransition ∨ k = Report.isAssignment) (evs : List (Ev N A P)) : ∀ (h : Hub N A P) (i : Nat) (l : Listener N A P), h.listeners[i]? = some l →
    ∃ l', (h.run evs).listeners[i]? = some l' ∧ l'.filter = l.filter ∧
      l'.told.filter k ++ (((h.run evs).transitions.map Report.transition ++ (h.run evs).assignments.map Report.assignment).filter (passes l.filter)).filter k =
      l.told.filter k ++ ((h.transitions.map Report.transition ++ h.assignments.map Report.assignment ++ reports evs).filter (passes l.filter)).filter k := by
  induction evs with
  | nil => intro h i l hl; exact ⟨l, hl, rfl, by simp [Hub.run, reports]⟩
  | cons ev evs ih =>
    intro h i l hl
    obtain ⟨l1, h1, h2⟩ := keeps h i l hl ev
    obtain ⟨l', a, b, c⟩ := ih (h.step ev) i l1 h1
    refine ⟨l', a, b.trans h2, ?_⟩
    rw [h2] at c
    refine Eq.trans c ?_
    have kt : ∀ (q : Report N A P → Bool) (as : List A), ((as.map (Report.assignment (N := N) (P := P))).filter q).filter Report.isTransition = [] := by
      intro q as; rw [filter_comm, show (as.map (Report.assignment (N := N) (P := P))).filter Report.isTransition = [] from ?_]; rfl
      rw [List.filter_eq_nil_iff]; intro x hx; obtain ⟨y, _, rfl⟩ := List.mem_map.mp hx; simp [Report.isTransition]
    have ka : ∀ (q : Report N A P → Bool) (ts : List (Tr N)), ((ts.map (Report.transition (A := A) (P := P))).filter q).filter Report.isAssignment = [] := by
      intro q ts; rw [filter_comm, show (ts.map (Report.transition (A := A) (P := P))).filter Report.isAssignment = [] from ?_]; rfl
      rw [List.filter_eq_nil_iff]; intro x hx; obtain ⟨y, _, rfl⟩ := List.mem_map.mp hx; simp [Report.isAssignment]
    have kp : ∀ p : P, ([Report.plan (N := N) (A := A) p]).filter k = [] := by
      intro p; rcases hk with rfl | rfl <;> rfl
    rw [show reports (ev :: evs) = reportsOf ev ++ reports evs from rfl]
    cases ev with
    | transitions ts =>
      have : l1 = l := by simp only [Hub.step] at h1; rw [hl] at h1; exact (Option.some.inj h1).symm
      subst this
      simp only [Hub.step, reportsOf, List.map_append, List.filter_append, List.append_assoc]
      rcases hk with rfl | rfl
      · simp [kt]
      · simp [ka]
    | assignment a =>
      have : l1 = l := by simp only [Hub.step] at h1; rw [hl] at h1; exact (Option.some.inj h1).symm
      subst this
      simp only [Hub.step, reportsOf, List.map_append, List.map_cons, List.map_nil, List.filter_append, List.append_assoc]
    | plan p =>
      have : l1 = l.plan p := by simp only [Hub.step, List.getElem?_map, hl, Option.map_some] at h1; exact (Option.some.inj h1).symm
      subst this
      rw [plan_told]
      simp only [Hub.step, reportsOf, List.filter_append, List.append_assoc]
      rw [filter_comm k _ [Report.plan p], kp]
      simp
    | stepComplete =>
      have : l1 = h.flush l := by simp only [Hub.step, List.getElem?_map, hl, Option.map_some] at h1; exact (Option.some.inj h1).symm
      subst this
      rw [flush_told]
      simp only [Hub.step, reportsOf, List.map_nil, List.nil_append, List.filter_append, List.append_assoc]
    | addListener f =>
      have : l1 = l := by
        have hi : i < h.listeners.length := by
          rcases Nat.lt_or_ge i h.listeners.length with h1 | h1
          · exact h1
          · rw [List.getElem?_eq_none h1] at hl; cases hl
        simp only [Hub.step, List.getElem?_append_left hi, hl] at h1; exact (Option.some.inj h1).symm
      subst this
      simp [Hub.step, reportsOf]

/-- C89 for any sequence of calls that ends with the end of a step: what a listener has been told since it was added are exactly the transitions, and exactly the assignments,
that pass its filter, each once, in the order they happened. -/
theorem c89_each_kind (pre evs : List (Ev N A P)) (f : Option (Filter N A P)) (hb : (Hub.run {} pre).transitions = []) (ha : (Hub.run {} pre).assignments = []) :
    ∃ l, (Hub.run {} (pre ++ [.addListener f] ++ evs ++ [.stepComplete])).listeners[(Hub.run {} pre).listeners.length]? = some l ∧ l.filter = f ∧
      l.told.filter Report.isTransition = ((reports evs).filter Report.isTransition).filter (passes f) ∧
      l.told.filter Report.isAssignment = ((reports evs).filter Report.isAssignment).filter (passes f) := by
  have run_app : ∀ (a b : List (Ev N A P)) (h : Hub N A P), h.run (a ++ b) = (h.run a).run b := by intro a b h; simp [Hub.run, List.foldl_append]
  set h0 := Hub.run ({} : Hub N A P) pre with hh0
  have e : Hub.run ({} : Hub N A P) (pre ++ [.addListener f] ++ evs ++ [.stepComplete]) = (h0.step (.addListener f)).run (evs ++ [.stepComplete]) := by
    rw [List.append_assoc, run_app, run_app pre, ← hh0]; rfl
  have hl : (h0.step (.addListener f)).listeners[h0.listeners.length]? = some { filter := f } := by simp [Hub.step]
  have endT : ((h0.step (.addListener f)).run (evs ++ [.stepComplete])).transitions = [] := by rw [run_app]; rfl
  have endA : ((h0.step (.addListener f)).run (evs ++ [.stepComplete])).assignments = [] := by rw [run_app]; rfl
  have rep : reports (evs ++ [Ev.stepComplete]) = reports evs := by simp [reports, reportsOf]
  obtain ⟨l, a, b, c⟩ := kind_invariant Report.isTransition (.inl rfl) (evs ++ [.stepComplete]) _ _ _ hl
  obtain ⟨l', a', _, c'⟩ := kind_invariant Report.isAssignment (.inr rfl) (evs ++ [.stepComplete]) _ _ _ hl
  rw [a] at a'; cases a'
  refine ⟨l, by rw [e, a], b, ?_, ?_⟩
  · rw [endT, endA, rep] at c
    simpa [Hub.step, hb, ha, filter_comm Report.isTransition] using c
  · rw [endT, endA, rep] at c'
    simpa [Hub.step, hb, ha, filter_comm Report.isAssignment] using c'

theorem run_transitions (rs : List (List (Tr N))) : ∀ h : Hub N A P, h.run (rs.map .transitions) = { h with transitions := h.transitions ++ rs.flatten } := by
  induction rs with
  | nil => intro h; simp [Hub.run]
  | cons r rs ih => intro h; simp only [Hub.run, List.map_cons, List.foldl_cons, List.flatten_cons] at *; rw [ih]; simp [Hub.step]

theorem run_assignments (as : List A) : ∀ h : Hub N A P, h.run (as.map .assignment) = { h with assignments := h.assignments ++ as } := by
  induction as with
  | nil => intro h; simp [Hub.run]
  | cons r rs ih => intro h; simp only [Hub.run, List.map_cons, List.foldl_cons] at *; rw [ih]; simp [Hub.step]

theorem run_cycle (h : Hub N A P) (ht : h.transitions = []) (ha : h.assignments = []) (rs : List (List (Tr N))) (ex re : List A) :
    h.run (cycle rs ex re) = { listeners := h.listeners.map (fun l => { l with told := l.told ++ (reports (cycle (P := P) rs ex re)).filter (passes l.filter) }) } := by
  have run_app : ∀ (a b : List (Ev N A P)) (h : Hub N A P), h.run (a ++ b) = (h.run a).run b := by intro a b h; simp [Hub.run, List.foldl_append]
  unfold cycle
  rw [run_app, run_app, run_app, run_transitions, run_assignments, run_assignments, ht, ha]
  have rep : reports (rs.map .transitions ++ ex.map .assignment ++ re.map .assignment ++ [Ev.stepComplete] : List (Ev N A P)) =
      rs.flatten.map .transition ++ (ex ++ re).map .assignment := by
    have a1 : ∀ rs : List (List (Tr N)), (rs.map (Ev.transitions (A := A) (P := P))).flatMap reportsOf = rs.flatten.map .transition := by
      intro rs; induction rs with
      | nil => rfl
      | cons r rs ih => simp [ih, reportsOf]
    have a2 : ∀ as : List A, (as.map (Ev.assignment (N := N) (P := P))).flatMap reportsOf = as.map .assignment := by
      intro as; induction as with
      | nil => rfl
      | cons r rs ih => simp [ih, reportsOf]
    simp only [reports, List.flatMap_append, a1, a2]
    simp [reportsOf]
  rw [rep]
  simp only [Hub.run, List.foldl_cons, List.foldl_nil, Hub.step, List.nil_append, Hub.mk.injEq, and_true]
  apply List.map_congr_left
  intro l _
  rw [flush_told]

/-- Between actions of the application nothing is held back in the hub, and every listener has been told everything that passes its filter. -/
theorem acts (as : List (Act N A P)) : ∀ (h : Hub N A P), h.transitions = [] → h.assignments = [] →
    (h.run (as.flatMap Act.calls)).transitions = [] ∧ (h.run (as.flatMap Act.calls)).assignments = [] ∧
    (h.run (as.flatMap Act.calls)).listeners.length = h.listeners.length + as.countP Act.adds ∧
    ∀ (i : Nat) (l : Listener N A P), h.listeners[i]? = some l →
      (h.run (as.flatMap Act.calls)).listeners[i]? = some { l with told := l.told ++ (reports (as.flatMap Act.calls)).filter (passes l.filter) } := by
  have run_app : ∀ (a b : List (Ev N A P)) (h : Hub N A P), h.run (a ++ b) = (h.run a).run b := by intro a b h; simp [Hub.run, List.foldl_append]
  induction as with
  | nil => intro h ht ha; refine ⟨ht, ha, by simp [Hub.run], fun i l hl => by simp [Hub.run, reports, hl]⟩
  | cons a as ih =>
    intro h ht ha
    rw [List.flatMap_cons, run_app]
    have rep : reports (a.calls ++ as.flatMap Act.calls) = reports a.calls ++ reports (as.flatMap Act.calls) := by simp [reports]
    rw [rep]
    suffices H : (h.run a.calls).transitions = [] ∧ (h.run a.calls).assignments = [] ∧ (h.run a.calls).listeners.length = h.listeners.length + (if a.adds then 1 else 0) ∧
        (∀ (i : Nat) (l : Listener N A P), h.listeners[i]? = some l →
          (h.run a.calls).listeners[i]? = some { l with told := l.told ++ (reports a.calls).filter (passes l.filter) }) by
      obtain ⟨ht1, ha1, hn, hi⟩ := H
      obtain ⟨b1, b2, b3, b4⟩ := ih _ ht1 ha1
      refine ⟨b1, b2, ?_, ?_⟩
      · rw [b3, hn, List.countP_cons]; omega
      · intro i l hl
        rw [b4 i _ (hi i l hl)]
        simp [List.filter_append]
    cases a with
    | cycle rs ex re =>
      have e : h.run (Act.calls (P := P) (.cycle rs ex re)) = _ := run_cycle h ht ha rs ex re
      rw [e]
      refine ⟨rfl, rfl, by simp [Act.adds], ?_⟩
      intro i l hl
      simp only [List.getElem?_map, hl, Option.map_some]; rfl
    | plan p =>
      have e : h.run (Act.calls (.plan p)) = h.step (.plan p) := rfl
      rw [e]
      refine ⟨ht, ha, by simp [Hub.step, Act.adds], ?_⟩
      intro i l hl
      simp only [Hub.step, List.getElem?_map, hl, Option.map_some, plan_told]; rfl
    | addListener f =>
      have e : h.run (Act.calls (.addListener f)) = h.step (.addListener f) := rfl
      rw [e]
      refine ⟨ht, ha, by simp [Hub.step, Act.adds], ?_⟩
      intro i l hl
      have hi : i < h.listeners.length := by
        rcases Nat.lt_or_ge i h.listeners.length with h1 | h1
        · exact h1
        · rw [List.getElem?_eq_none h1] at hl; cases hl
      simp [Hub.step, List.getElem?_append_left hi, hl, Act.calls, reports, reportsOf]

/-- C89: after any number of cycles of the executive, plans added and listeners added, every listener has been told everything that happened since it was added – transitions,
assignments, plans – in the order it happened, each thing once, less what its filter holds back. -/
theorem c89_told (pre post : List (Act N A P)) (f : Option (Filter N A P)) :
    (Hub.run {} ((pre ++ [Act.addListener f] ++ post).flatMap Act.calls)).listeners[pre.countP Act.adds]? =
      some { filter := f, told := (reports (post.flatMap Act.calls)).filter (passes f) } := by
  have run_app : ∀ (a b : List (Ev N A P)) (h : Hub N A P), h.run (a ++ b) = (h.run a).run b := by intro a b h; simp [Hub.run, List.foldl_append]
  obtain ⟨a1, a2, a3, _⟩ := acts pre ({} : Hub N A P) rfl rfl
  rw [List.flatMap_append, List.flatMap_append, run_app, run_app]
  set h0 := Hub.run ({} : Hub N A P) (pre.flatMap Act.calls) with hh0
  have hn : h0.listeners.length = pre.countP Act.adds := by simpa using a3
  obtain ⟨_, _, _, b⟩ := acts post (h0.step (.addListener f)) a1 a2
  have := b (pre.countP Act.adds) { filter := f } (by simp [Hub.step, ← hn])
  simpa [Act.calls, Hub.run] using this

/-- Nothing is left out and nothing comes twice, also in a concrete case: two listeners, one with a filter, three cycles. -/
theorem c89_example :
    let f : Filter Nat Nat Nat := toFilter (fun s => decide (s = .executing))
    let t1 : Tr Nat := ⟨1, .waiting, .executing⟩; let t2 : Tr Nat := ⟨2, .inactive, .waiting⟩; let t3 : Tr Nat := ⟨1, .executing, .finished⟩
    ((Hub.run {} (([.addListener none, .cycle [[t1], [t2]] [7] [], .addListener (some f), .plan 9, .cycle [[t2, t3]] [8] [7]] : List (Act Nat Nat Nat)).flatMap Act.calls)).listeners.map
      (·.told)) = [[.transition t1, .transition t2, .assignment 7, .plan 9, .transition t2, .transition t3, .assignment 8, .assignment 7],
        [.plan 9, .transition t3, .assignment 8, .assignment 7]] := by decide

end

/-! ## Filters -/

theorem dropWhile_blanks {b s : List Char} (h : Blanks b) : (b ++ s).dropWhile isBlank = s.dropWhile isBlank := by
  induction b with
  | nil => rfl
  | cons c b ih => simp [h c (by simp), ih (fun x hx => h x (by simp [hx]))]

theorem argsLoop_listed {s : List Char} {ns : List (List Char)} (h : Listed s ns) : ∀ n, s.length < n → argsLoop n s = ns := by
  induction h with
  | @last b w t hb hw ht =>
    intro n hn
    obtain ⟨m, rfl⟩ : ∃ m, n = m + 1 := ⟨n - 1, by omega⟩
    obtain ⟨hw1, hw2⟩ := hw
    cases w with
    | nil => exact absurd rfl hw1
    | cons c w =>
      have e : (b ++ (c :: w) ++ t).dropWhile isBlank = c :: (w ++ t) := by
        rw [List.append_assoc, dropWhile_blanks hb]; simp [(hw2 c (by simp)).2]
      have nc : ',' ∉ c :: (w ++ t) := by
        intro hm
        rcases List.mem_append.mp (show ',' ∈ (c :: w) ++ t from hm) with hm | hm
        · exact (hw2 _ hm).1 rfl
        · have := ht _ hm; revert this; decide
      simp only [argsLoop, e, if_neg nc, List.cons.injEq, and_true]
      rw [show c :: (w ++ t) = (c :: w) ++ t from rfl, List.takeWhile_append_of_pos (by intro x hx; simp [(hw2 x hx).2])]
      rw [show t.takeWhile (fun x => !isBlank x) = [] from ?_]
      · simp
      · cases t with
        | nil => rfl
        | cons x t => simp [ht x (by simp)]
  | @cons b w r ns hb hw hr ih =>
    intro n hn
    obtain ⟨m, rfl⟩ : ∃ m, n = m + 1 := ⟨n - 1, by omega⟩
    obtain ⟨hw1, hw2⟩ := hw
    cases w with
    | nil => exact absurd rfl hw1
    | cons c w =>
      have e : (b ++ (c :: w) ++ ',' :: r).dropWhile isBlank = c :: (w ++ ',' :: r) := by
        rw [List.append_assoc, dropWhile_blanks hb]; simp [(hw2 c (by simp)).2]
      have nc : ',' ∈ c :: (w ++ ',' :: r) := by simp
      simp only [argsLoop, e, if_pos nc, List.cons.injEq]
      have p : ∀ x ∈ c :: w, (decide (x ≠ ',')) = true := by intro x hx; simp [(hw2 x hx).1]
      constructor
      · rw [show c :: (w ++ ',' :: r) = (c :: w) ++ ',' :: r from rfl, List.takeWhile_append_of_pos p]; simp
      · rw [show c :: (w ++ ',' :: r) = (c :: w) ++ ',' :: r from rfl, List.dropWhile_append_of_pos p]
        simp only [ne_eq, not_true_eq_false, decide_false, Bool.false_eq_true, not_false_eq_true, List.dropWhile_cons_of_neg, List.drop_succ_cons, List.drop_zero]
        apply ih
        simp at hn; omega

/-- C90: a list of names is read as the names it lists. -/
theorem c90_names_partial (s : List Char) (ns : List (List Char)) (h : Listed s ns) : parseArgs s = ns :=
  argsLoop_listed h _ (Nat.lt_succ_self _)

theorem mark_iff (b : Bool) (x : NState) (ns : List (List Char)) : ∀ e : Enabled,
    mark b e ns x = if (∃ w ∈ ns, parseState (String.ofList w) = x) then b else e x := by
  induction ns with
  | nil => intro e; simp [mark]
  | cons w ns ih =>
    intro e
    have : mark b e (w :: ns) = mark b (fun y => if y = parseState (String.ofList w) then b else e y) ns := rfl
    rw [this, ih]
    by_cases h1 : ∃ w ∈ ns, parseState (String.ofList w) = x
    · rw [if_pos h1, if_pos]; obtain ⟨v, hv, e⟩ := h1; exact ⟨v, by simp [hv], e⟩
    · rw [if_neg h1]
      by_cases h2 : x = parseState (String.ofList w)
      · rw [if_pos h2, if_pos ⟨w, by simp, h2.symm⟩]
      · rw [if_neg h2, if_neg]
        rintro ⟨v, hv, e'⟩
        rcases List.mem_cons.mp hv with rfl | hv
        · exact h2 e'.symm
        · exact h1 ⟨v, hv, e'⟩

theorem named_iff (x : NState) (hx : x ≠ .none) (ns : List (List Char)) : (∃ w ∈ ns, parseState (String.ofList w) = x) ↔ (stateName x).toList ∈ ns := by
  constructor
  · rintro ⟨w, hw, e⟩
    have := ((Verif.Text.c73_names (String.ofList w)).1 x hx).mp e
    rw [← this]; simpa using hw
  · intro h
    exact ⟨_, h, ((Verif.Text.c73_names _).1 x hx).mpr (by simp)⟩

theorem listed_ne {s : List Char} {ns : List (List Char)} (h : Listed s ns) : s ≠ [] := by
  cases h with
  | last _ hw _ => intro e; simp at e; exact hw.1 e.2.1
  | cons => simp

/-- C90: a filter given by the states of interest passes exactly the transitions from or to one of the states named … -/
theorem c90_states_partial {N A P : Type} (s : List Char) (ns : List (List Char)) (h : Listed s ns) :
    ∃ e, stateFilter s [] = some e ∧ ∀ t : Tr N, t.old ≠ .none → t.new ≠ .none →
      ((toFilter (A := A) (P := P) e).transition t = true ↔ (stateName t.old).toList ∈ ns ∨ (stateName t.new).toList ∈ ns) := by
  refine ⟨mark true (fun _ => false) ns, ?_, ?_⟩
  · have := listed_ne h
    cases s with
    | nil => exact absurd rfl this
    | cons c s => simp only [stateFilter, c90_names_partial _ _ h]
  · intro t h1 h2
    simp only [toFilter, Bool.or_eq_true, mark_iff, named_iff _ h1, named_iff _ h2]
    by_cases a : (stateName t.old).toList ∈ ns <;> by_cases b : (stateName t.new).toList ∈ ns <;> simp [a, b]

/-- … one given by the states to be ignored passes exactly the transitions from or to a state that is not named … -/
theorem c90_ignored_partial {N A P : Type} (s : List Char) (ns : List (List Char)) (h : Listed s ns) :
    ∃ e, stateFilter [] s = some e ∧ ∀ t : Tr N, t.old ≠ .none → t.new ≠ .none →
      ((toFilter (A := A) (P := P) e).transition t = true ↔ (stateName t.old).toList ∉ ns ∨ (stateName t.new).toList ∉ ns) := by
  refine ⟨mark false (fun _ => true) ns, ?_, ?_⟩
  · have := listed_ne h
    cases s with
    | nil => exact absurd rfl this
    | cons c s => simp only [stateFilter, c90_names_partial _ _ h]
  · intro t h1 h2
    simp only [toFilter, Bool.or_eq_true, mark_iff, named_iff _ h1, named_iff _ h2]
    by_cases a : (stateName t.old).toList ∈ ns <;> by_cases b : (stateName t.new).toList ∈ ns <;> simp [a, b]

/-- … one that names no states passes all, and one that gives both is refused. All assignments and plans pass. -/
theorem c90_others {N A P : Type} (s i : List Char) : (stateFilter s i = none ↔ s ≠ [] ∧ i ≠ []) ∧
    (∃ e, stateFilter [] [] = some e ∧ ∀ t : Tr N, (toFilter (A := A) (P := P) e).transition t = true) ∧
    ∀ e, (∀ a, (toFilter (N := N) (A := A) (P := P) e).assignment a = true) ∧ ∀ p, (toFilter (N := N) (A := A) (P := P) e).plan p = true := by
  refine ⟨?_, ⟨_, rfl, fun _ => rfl⟩, fun _ => ⟨fun _ => rfl, fun _ => rfl⟩⟩
  cases s <;> cases i <;> simp [stateFilter]

/-- C90 fails for a blank in front of a comma: the name is then taken with the blank, and not recognised. No error is reported. -/
theorem c90_blank_before_comma : (stateFilter "EXECUTING ,FINISHED".toList []).map (fun e => (e .executing, e .finished)) = some (false, true) ∧
    (stateFilter "EXECUTING, FINISHED".toList []).map (fun e => (e .executing, e .finished)) = some (true, true) := by decide

/-- The same for a name that does not exist. -/
theorem c90_no_such_state : (stateFilter "RUNNING".toList []).map (fun e => (e .executing, e .finished)) = some (false, false) := by decide

/-- A list that meets the hypotheses. -/
theorem c90_example : Listed " WAITING,\n FINISHED ".toList ["WAITING".toList, "FINISHED".toList] :=
  .cons (b := [' ']) (w := "WAITING".toList) (by intro c hc; simp at hc; subst hc; rfl) ⟨by decide, by decide⟩
    (.last (b := ['\n', ' ']) (w := "FINISHED".toList) (t := [' ']) (by intro c hc; simp at hc; rcases hc with rfl | rfl <;> rfl) ⟨by decide, by decide⟩
      (by intro c hc; simp at hc; subst hc; rfl))

end Verif.Listen
