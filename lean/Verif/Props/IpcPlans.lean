import Verif.Ipc.Plans.Spec
import Verif.Props.Library
set_option autoImplicit false
/-!
C153: plans and libraries sent over IPC.
-/
namespace Verif.Ipc.Plans
open Verif.Library

/-- What a document that is added does. -/
theorem addLibrary_spec (w : World) (s : St) (h : Inv s.lib) (x : X) :
    s.addLibrary w x = { s with
      lib := (s.lib.step (.add (w.name x) (w.check x) (w.code x))).1
      toldLibraries := s.toldLibraries ++ (if w.check x then [x] else [])
      errors := s.errors + (if w.check x then 0 else 1) } := by
  have hl := loadNew h.sorted h.fresh (w.name x) (w.check x) (w.code x)
  unfold St.addLibrary
  simp only [Lib.step]
  rcases hl with ⟨h1, h2, -⟩ | ⟨h1, h2, -⟩
  · generalize s.lib.alloc.loadDocument _ = r at h2 ⊢
    obtain ⟨l, q⟩ := r
    simp only at h2
    subst h2
    simp [h1]
  · generalize s.lib.alloc.loadDocument _ = r at h2 ⊢
    obtain ⟨l, q⟩ := r
    simp only at h2
    subst h2
    simp [h1]

/-- One message. -/
theorem receive_spec (s : St) (h : Inv s.lib) (m : World × Kind × List Char) :
    (s.receive m.1 m.2).plans = s.plans ++ (planOf m).toList ∧ (s.receive m.1 m.2).toldPlans = s.toldPlans ++ (planOf m).toList ∧
    (s.receive m.1 m.2).notified = s.notified + (planOf m).toList.length ∧
    (s.receive m.1 m.2).lib = (match callOf m with | some o => (s.lib.step o).1 | none => s.lib) ∧
    (s.receive m.1 m.2).toldLibraries = s.toldLibraries ++ ((documentOf m).filter m.1.check).toList ∧
    (s.receive m.1 m.2).errors = s.errors + (if (planOf m).isNone && ((documentOf m).filter m.1.check).isNone then 1 else 0) := by
  obtain ⟨w, k, t⟩ := m
  have file : ∀ k, k = .addPlanFile ∨ k = .addLibraryFile → s.receive w (k, t) = (match w.load t with
      | none => { s with errors := s.errors + 1 }
      | some x => s.addLibrary w x) := by
    intro k hk
    rcases hk with rfl | rfl <;> simp [St.receive, St.planFile] <;> cases w.load t <;> rfl
  cases k with
  | addPlan =>
    simp only [St.receive, St.planText, planOf, callOf, documentOf, if_true]
    cases hp : (w.parse t).map X.default with
    | none => simp
    | some x =>
      simp only [St.addPlan]
      by_cases hx : w.plan x = true
      · simp [hx, Option.filter]
      · simp [hx, Option.filter]
  | addLibrary =>
    simp only [St.receive, St.planText, planOf, callOf, documentOf]
    cases hp : (w.parse t).map X.default with
    | none => simp
    | some x =>
      rw [if_neg (by simp)]
      simp only [addLibrary_spec w s h x]
      by_cases hx : w.check x = true
      · simp [hx, Option.filter]
      · simp [hx, Option.filter]
  | addPlanFile =>
    rw [file _ (.inl rfl)]
    simp only [planOf, callOf, documentOf]
    cases hp : w.load t with
    | none => simp
    | some x =>
      simp only [addLibrary_spec w s h x]
      by_cases hx : w.check x = true
      · simp [hx, Option.filter]
      · simp [hx, Option.filter]
  | addLibraryFile =>
    rw [file _ (.inr rfl)]
    simp only [planOf, callOf, documentOf]
    cases hp : w.load t with
    | none => simp
    | some x =>
      simp only [addLibrary_spec w s h x]
      by_cases hx : w.check x = true
      · simp [hx, Option.filter]
      · simp [hx, Option.filter]

theorem callOf_notAgain (m : World × Kind × List Char) (o : Op) (h : callOf m = some o) : NotAgain o := by
  unfold callOf at h
  rw [Option.map_eq_some_iff] at h
  obtain ⟨x, -, rfl⟩ := h
  trivial

theorem run_spec (ms : List (World × Kind × List Char)) : ∀ s : St, Inv s.lib →
    (s.run ms).plans = s.plans ++ ms.filterMap planOf ∧ (s.run ms).toldPlans = s.toldPlans ++ ms.filterMap planOf ∧
    (s.run ms).notified = s.notified + (ms.filterMap planOf).length ∧ (s.run ms).lib = s.lib.run (ms.filterMap callOf) ∧
    (s.run ms).toldLibraries = s.toldLibraries ++ ms.filterMap (fun m => (documentOf m).filter m.1.check) ∧
    (s.run ms).errors = s.errors + ms.countP (fun m => (planOf m).isNone && ((documentOf m).filter m.1.check).isNone) := by
  induction ms with
  | nil => intro s _; simp [St.run, Lib.run]
  | cons m ms ih =>
    intro s h
    obtain ⟨a1, a2, a3, a4, a5, a6⟩ := receive_spec s h m
    have hinv : Inv (s.receive m.1 m.2).lib := by
      rw [a4]
      cases hc : callOf m with
      | none => exact h
      | some o => exact inv_step h o (callOf_notAgain m o hc)
    obtain ⟨b1, b2, b3, b4, b5, b6⟩ := ih _ hinv
    have hr : s.run (m :: ms) = (s.receive m.1 m.2).run ms := rfl
    rw [hr, b1, b2, b3, b4, b5, b6, a1, a2, a3, a4, a5, a6]
    refine ⟨?_, ?_, ?_, ?_, ?_, ?_⟩
    · cases hp : planOf m <;> simp [List.filterMap_cons, hp]
    · cases hp : planOf m <;> simp [List.filterMap_cons, hp]
    · cases hp : planOf m <;> simp [List.filterMap_cons, hp]; omega
    · cases hc : callOf m <;> simp [List.filterMap_cons, hc, Lib.run]
    · cases hd : (documentOf m).filter m.1.check <;> simp [List.filterMap_cons, hd]
    · rw [List.countP_cons]; omega

/-- **C153, plans as texts.**  After any sequence of messages, whatever files there are at each: exactly the plans sent as texts that are XML and can be read have been put into the queue of the executive, in
the order in which they came, the listeners have been told of each of them, and the executive has been notified once for each. -/
theorem c153_plans_partial (ms : List (World × Kind × List Char)) :
    (St.run {} ms).plans = ms.filterMap planOf ∧ (St.run {} ms).toldPlans = ms.filterMap planOf ∧ (St.run {} ms).notified = (ms.filterMap planOf).length := by
  obtain ⟨a, b, c, -⟩ := run_spec ms {} inv_init
  exact ⟨by simpa using a, by simpa using b, by simpa using c⟩

/-- **C153, libraries.**  After any sequence of messages, for every name: the library of this name is the last accepted one of those sent (as texts or as files); documents refused change nothing; no document is deleted
twice or lost. -/
theorem c153_libraries (ms : List (World × Kind × List Char)) (n : List Char) :
    find strComp (St.run {} ms).lib.table n = ((accepted {} (ms.filterMap callOf) []).filter (fun d => d.nodeId = n)).getLast? ∧
    (St.run {} ms).toldLibraries = ms.filterMap (fun m => (documentOf m).filter m.1.check) ∧
    (St.run {} ms).lib.bad = false ∧ (St.run {} ms).lib.live.Perm ((St.run {} ms).lib.table.map (fun e => e.2.ptr)) := by
  obtain ⟨-, -, -, d, e, -⟩ := run_spec ms {} inv_init
  have hn : ∀ o ∈ ms.filterMap callOf, NotAgain o := by
    intro o ho
    obtain ⟨m, -, hm⟩ := List.mem_filterMap.1 ho
    exact callOf_notAgain m o hm
  have d : (St.run {} ms).lib = Lib.run {} (ms.filterMap callOf) := d
  rw [d]
  obtain ⟨f1, _, f3, _⟩ := c112_documents_partial (ms.filterMap callOf) hn
  exact ⟨c112_latest _ hn n, by simpa using e, f1, f3⟩

/-- **C153, nothing is passed over in silence**: a message that brings neither a plan nor a library is reported as an error, and no other is. -/
theorem c153_errors (ms : List (World × Kind × List Char)) :
    (St.run {} ms).errors = ms.countP (fun m => (planOf m).isNone && ((documentOf m).filter m.1.check).isNone) := by
  obtain ⟨-, -, -, -, -, f⟩ := run_spec ms {} inv_init
  simpa using f

/-- **C153 is false of plans sent as names of files**: such a message does exactly what the message for a library does (`IpcAdapter.cc:813` compares with the wrong type): the plan is never run, but becomes a library,
and may replace one. -/
theorem c153_file_refuted (w : World) (s : St) (path : List Char) :
    s.receive w (.addPlanFile, path) = s.receive w (.addLibraryFile, path) ∧
    (s.receive w (.addPlanFile, path)).plans = s.plans ∧ (s.receive w (.addPlanFile, path)).notified = s.notified := by
  have e : s.receive w (.addPlanFile, path) = s.receive w (.addLibraryFile, path) := by simp [St.receive, St.planFile]
  refine ⟨e, ?_⟩
  simp only [St.receive, St.planFile]
  cases w.load path with
  | none => exact ⟨rfl, rfl⟩
  | some x =>
    show (s.addLibrary w x).plans = s.plans ∧ (s.addLibrary w x).notified = s.notified
    unfold St.addLibrary
    split <;> exact ⟨rfl, rfl⟩

/-- A concrete case: a good plan in a file replaces the library of its name, and nothing runs. -/
theorem c153_file_example :
    let w : World := { parse := fun s => some (.text s), file := fun p => some p, plan := fun _ => true, check := fun _ => true, name := fun _ => "Foo".toList, code := fun x => match x with | .text s => s.length | _ => 0 }
    let s := St.run {} [(w, .addLibrary, "a".toList), (w, .addPlanFile, "bb".toList), (w, .addPlan, "ccc".toList)]
    find strComp s.lib.table "Foo".toList = some ⟨1, "Foo".toList, true, 2⟩ ∧ s.plans.length = 1 ∧ s.notified = 1 ∧ s.errors = 0 ∧ s.lib.live = [1] := by decide

/-! ### White space -/

mutual
theorem same_x : ∀ x : X, x.full → x.default = x.single
  | .elem t ks, h => by
    have h2 : fulls ks := h.2
    have e : defaults ks = singles ks := same_l ks h2
    simp only [X.default, X.single]
    by_cases ha : allText ks = true
    · rw [if_pos ha]
      match ks, ha with
      | [.text s], _ =>
        have : blank s = false := h.1 s rfl
        simp [defaults, this]
    · rw [if_neg ha, e]
  | .text s, _ => by simp [X.default, X.single]
theorem same_l : ∀ l : List X, fulls l → defaults l = singles l
  | [], _ => by simp [defaults, singles]
  | .text s :: r, h => by simp only [defaults, singles, same_l r h.2]
  | .elem t ks :: r, h => by
    have h1 : (X.elem t ks).full := h.1
    have e := same_x (.elem t ks) h1
    simp only [X.default, X.single, X.elem.injEq, true_and] at e
    simp only [defaults, singles, same_l r h.2, e]
end

/-- **C153, the same document as text and as file**: a library sent as a text and as the name of a file with the same contents has the same effect, if no element contains nothing but white space. -/
theorem c153_same (w : World) (s : St) (path t : List Char) (hf : w.file path = some t) (h : ∀ x, w.parse t = some x → x.full) :
    s.receive w (.addLibrary, t) = s.receive w (.addLibraryFile, path) := by
  simp only [St.receive, St.planText, St.planFile, World.load, hf, Option.bind_some]
  cases hp : w.parse t with
  | none => rfl
  | some x =>
    simp only [Option.map_some, same_x x (h x hp)]
    rfl

/-- **False otherwise**: a string that is a blank stays one in a file, and becomes the empty string in a text with the same contents (`IpcAdapter.cc:831` reads with other options than `parsePlan.cc:52`). -/
theorem c153_blank_refuted (w : World) (path t : List Char) (hf : w.file path = some t) (hp : w.parse t = some (.elem "StringValue".toList [.text " ".toList])) :
    documentOf (w, .addLibrary, t) = some (.elem "StringValue".toList []) ∧
    documentOf (w, .addLibraryFile, path) = some (.elem "StringValue".toList [.text " ".toList]) := by
  constructor
  · simp [documentOf, hp, X.default, defaults, blank]
  · simp [documentOf, World.load, hf, hp, X.single, allText]

/-- Not empty: a document with white space between its elements. -/
theorem c153_example : X.full (.elem "Plan".toList [.text " ".toList, .elem "Node".toList [.text "a b".toList], .text "\n".toList]) := by
  simp [X.full, fulls, blank]

end Verif.Ipc.Plans
