import Verif.Exec.Run
/-
Consequences of the description of macro steps: what the log says between the start of a node and the end of the macro step.
-/
namespace Verif.Exec
open Verif.Node

variable {Val Env : Type} {P : Plan Val Env}

/-- The output part of a macro step. -/
def outputs (P : Plan Val Env) (tr : List (Event Val Env)) (acc rej : List (NodeId × Obs Val Env)) (o' : Obs Val Env) :
    List (Event Val Env) :=
  (starts P .assignment tr).map (fun p => .assign p.1 ((P.node p.1).rhs p.2)) ++
    (failings P .assignment tr).map (fun n => .retract n (o'.vars (P.node n).dest)) ++
    acc.map (fun p => .command p.1 ((P.node p.1).rhs p.2)) ++ rej.map (fun p => .deny p.1) ++
    (failings P .command tr).map .abort ++ (starts P .update tr).map (fun p => .update p.1 ((P.node p.1).rhs p.2))

theorem outputs_not (tr acc rej o') : ∀ e ∈ outputs P tr acc rej o', ¬ IsMove e ∧ ¬ IsDone e := by
  intro e he
  simp only [outputs, List.mem_append, List.mem_map] at he
  rcases he with ((((⟨_, _, rfl⟩ | ⟨_, _, rfl⟩) | ⟨_, _, rfl⟩) | ⟨_, _, rfl⟩) | ⟨_, _, rfl⟩) | ⟨_, _, rfl⟩ <;>
    exact ⟨fun h => h, fun h => h⟩

theorem Macros.last {l : List (Event Val Env)} (h : Macros P l) : l = [] ∨ ∃ l' o, l = l' ++ [.stepDone o] := by
  cases h with
  | nil => exact .inl rfl
  | snoc _ hs =>
    obtain ⟨tr, acc, rej, o', rfl, _⟩ := hs.shape
    exact .inr ⟨_, o', by rw [← List.append_assoc]⟩

/-- The macro step around an event that is followed, later in the macro step, by the end of the macro step. -/
theorem Macros.around {l : List (Event Val Env)} (h : Macros P l) :
    ∀ A e B o' C, ¬ IsDone e → (∀ x ∈ B, ¬ IsDone x) → l = A ++ e :: B ++ .stepDone o' :: C →
    ∃ before A', A = before ++ A' ∧ MacroStep P before (A' ++ e :: B ++ [.stepDone o']) := by
  induction h with
  | nil => intro A e B o' C _ _ hl; simp at hl
  | @snoc l seg hm hs ih =>
    intro A e B o' C he hB hl
    have hs' := hs
    obtain ⟨tr, acc, rej, o2, hseg, hmoves, _⟩ := hs.shape
    have hseg' : seg = (tr ++ outputs P tr acc rej o2) ++ [.stepDone o2] := by rw [hseg]; simp [outputs]
    have hnd : ∀ x ∈ tr ++ outputs P tr acc rej o2, ¬ IsDone x := by
      intro x hx
      rcases List.mem_append.1 hx with hx | hx
      · have := hmoves x hx; intro hd; cases x <;> simp_all [IsMove, IsDone]
      · exact (outputs_not tr acc rej o2 x hx).2
    rcases List.append_eq_append_iff.1 hl with ⟨c, hc1, hc2⟩ | ⟨c, hc1, hc2⟩
    · -- the end of the step is in `seg`
      rw [hseg'] at hc2
      have hC : C = [] := by
        rcases List.eq_nil_or_concat C with h | ⟨C', x, rfl⟩
        · exact h
        · exfalso
          have h1 : (tr ++ outputs P tr acc rej o2) ++ [.stepDone o2] = (c ++ .stepDone o' :: C') ++ [x] := by rw [hc2]; simp
          have h2 := (List.append_inj' h1 rfl).1
          exact hnd (.stepDone o') (by rw [h2]; simp) trivial
      subst hC
      have h3 := List.append_inj' hc2 rfl
      have h4 : o2 = o' := by simpa using h3.2
      subst h4
      -- where does `l` end
      rcases List.append_eq_append_iff.1 hc1 with ⟨d, hd1, hd2⟩ | ⟨d, hd1, hd2⟩
      · -- `A = ...`: l inside
        cases d with
        | nil =>
          simp only [List.append_nil] at hd1
          refine ⟨l, [], by simp [hd1], ?_⟩
          have : seg = ([] : List (Event Val Env)) ++ e :: B ++ [.stepDone o2] := by
            rw [hseg', h3.1]; simp at hd2; rw [hd2]; simp
          rw [← this]; exact hs'
        | cons x d =>
          exfalso
          -- `l = A ++ x :: d` and `e :: B = x :: d ++ c`: the last element of `l` is an end
          rcases hm.last with h5 | ⟨l', o3, h5⟩
          · rw [h5] at hd1; simp at hd1
          · rw [h5] at hd1
            rcases List.eq_nil_or_concat (x :: d) with h6 | ⟨d', y, h6⟩
            · cases h6
            · rw [List.concat_eq_append] at h6
              rw [h6, ← List.append_assoc] at hd1
              have h7 : Event.stepDone o3 = y := by simpa using (List.append_inj' hd1 rfl).2
              have h8 : y ∈ e :: B := by rw [hd2, h6]; simp
              rcases List.mem_cons.1 h8 with h9 | h9
              · exact he (by rw [← h9, ← h7]; trivial)
              · exact hB y h9 (by rw [← h7]; trivial)
      · refine ⟨l, d, hd1, ?_⟩
        have : seg = d ++ e :: B ++ [.stepDone o2] := by rw [hseg', h3.1, hd2]
        rw [← this]; exact hs'
    · cases c with
      | nil =>
        -- the end is the first element of `seg`
        simp only [List.append_nil] at hc1
        simp only [List.nil_append] at hc2
        rcases hm.last with h5 | ⟨l', o3, h5⟩
        · rw [h5] at hc1; simp at hc1
        · rw [h5] at hc1
          exfalso
          have h6 : Event.stepDone o3 ∈ e :: B := by
            rcases List.eq_nil_or_concat (e :: B) with h7 | ⟨d', y, h7⟩
            · cases h7
            · rw [List.concat_eq_append] at h7
              rw [h7, ← List.append_assoc] at hc1
              have : Event.stepDone o3 = y := by simpa using (List.append_inj' hc1 rfl).2
              rw [h7, this]; simp
          rcases List.mem_cons.1 h6 with h9 | h9
          · exact he (by rw [← h9]; trivial)
          · exact hB _ h9 trivial
      | cons x c =>
        simp only [List.cons_append, List.cons.injEq] at hc2
        obtain ⟨rfl, _⟩ := hc2
        exact ih A e B o' c he hB hc1

/-- The macro step around a transition or the start of a node, split at that event. -/
theorem Macros.around_move {l : List (Event Val Env)} (h : Macros P l) {A e B o' C} (he : IsMove e) (hB : ∀ x ∈ B, ¬ IsDone x)
    (hl : l = A ++ e :: B ++ .stepDone o' :: C) :
    ∃ before A' tr' acc rej, A = before ++ A' ∧ (∀ x ∈ A' ++ e :: tr', IsMove x) ∧ B = tr' ++ outputs P (A' ++ e :: tr') acc rej o' ∧
      (acc ++ rej).Perm (starts P .command (A' ++ e :: tr')) ∧
      ((starts P .assignment (A' ++ e :: tr')).map Prod.fst).Nodup ∧ ((starts P .command (A' ++ e :: tr')).map Prod.fst).Nodup ∧
      ((starts P .update (A' ++ e :: tr')).map Prod.fst).Nodup ∧ (failings P .assignment (A' ++ e :: tr')).Nodup ∧
      (failings P .command (A' ++ e :: tr')).Nodup ∧
      (∀ p ∈ starts P .assignment (A' ++ e :: tr'), o'.vars (P.node p.1).dest = (P.node p.1).rhs p.2) ∧
      (∀ n ∈ failings P .assignment (A' ++ e :: tr'), n ∉ (starts P .assignment (A' ++ e :: tr')).map Prod.fst ∧
        ∃ o, lastStart n before none = some o ∧ o'.vars (P.node n).dest = o.vars (P.node n).dest) := by
  have hed : ¬ IsDone e := by cases e <;> simp_all [IsMove, IsDone]
  obtain ⟨before, A', hA, hs⟩ := h.around A e B o' C hed hB hl
  obtain ⟨tr, acc, rej, o2, hseg, hm, h1, h2, h3, h4, h5, h6, h7, h8⟩ := hs.shape
  have hseg' : (A' ++ e :: B) ++ [.stepDone o'] = (tr ++ outputs P tr acc rej o2) ++ [.stepDone o2] := by
    rw [hseg]; simp [outputs]
  have ho : o' = o2 := by simpa using (List.append_inj' hseg' rfl).2
  subst ho
  have hb := (List.append_inj' hseg' rfl).1
  rcases List.append_eq_append_iff.1 hb with ⟨c, hc1, hc2⟩ | ⟨c, hc1, hc2⟩
  · cases c with
    | nil =>
      exfalso
      have : e ∈ outputs P tr acc rej o' := by simp at hc2; rw [← hc2]; simp
      exact (outputs_not tr acc rej o' e this).1 he
    | cons x c =>
      simp only [List.cons_append, List.cons.injEq] at hc2
      obtain ⟨rfl, hc2⟩ := hc2
      subst hc1
      exact ⟨before, A', c, acc, rej, hA, hm, hc2, h1, h2, h3, h4, h5, h6, h7, h8⟩
  · exfalso
    have : e ∈ outputs P tr acc rej o' := by rw [hc2]; simp
    exact (outputs_not tr acc rej o' e this).1 he

/-! ## Counting outputs -/

theorem filterMap_one {α β : Type} (l : List α) (key : α → NodeId) (g : α → β) (n : NodeId) (a : α) (ha : a ∈ l) (hk : key a = n)
    (hnd : (l.map key).Nodup) : l.filterMap (fun x => if key x = n then some (g x) else none) = [g a] := by
  induction l with
  | nil => cases ha
  | cons x l ih =>
    simp only [List.map_cons, List.nodup_cons] at hnd
    rcases List.mem_cons.1 ha with rfl | ha
    · have : l.filterMap (fun x => if key x = n then some (g x) else none) = [] := by
        rw [List.filterMap_eq_nil_iff]
        intro y hy
        have : key y ≠ n := fun e => hnd.1 (by rw [hk, ← e]; exact List.mem_map_of_mem hy)
        simp [this]
      simp [hk, this]
    · have : key x ≠ n := fun e => hnd.1 (by rw [e, ← hk]; exact List.mem_map_of_mem ha)
      simp [this, ih ha hnd.2]

theorem filterMap_zero {α β : Type} (l : List α) (key : α → NodeId) (g : α → β) (n : NodeId) (h : n ∉ l.map key) :
    l.filterMap (fun x => if key x = n then some (g x) else none) = [] := by
  rw [List.filterMap_eq_nil_iff]
  intro y hy
  have : key y ≠ n := fun e => h (by rw [← e]; exact List.mem_map_of_mem hy)
  simp [this]

theorem assignsOf_moves (n) (l : List (Event Val Env)) (h : ∀ e ∈ l, IsMove e) : assignsOf n l = [] := by
  unfold assignsOf; rw [List.filterMap_eq_nil_iff]; intro e he
  have := h e he; cases e <;> first | rfl | exact this.elim
theorem retractsOf_moves (n) (l : List (Event Val Env)) (h : ∀ e ∈ l, IsMove e) : retractsOf n l = [] := by
  unfold retractsOf; rw [List.filterMap_eq_nil_iff]; intro e he
  have := h e he; cases e <;> first | rfl | exact this.elim
theorem commandsOf_moves (n) (l : List (Event Val Env)) (h : ∀ e ∈ l, IsMove e) : commandsOf n l = [] := by
  unfold commandsOf; rw [List.filterMap_eq_nil_iff]; intro e he
  have := h e he; cases e <;> first | rfl | exact this.elim
theorem abortsOf_moves (n) (l : List (Event Val Env)) (h : ∀ e ∈ l, IsMove e) : abortsOf n l = [] := by
  unfold abortsOf; rw [List.filterMap_eq_nil_iff]; intro e he
  have := h e he; cases e <;> first | rfl | exact this.elim
theorem updatesOf_moves (n) (l : List (Event Val Env)) (h : ∀ e ∈ l, IsMove e) : updatesOf n l = [] := by
  unfold updatesOf; rw [List.filterMap_eq_nil_iff]; intro e he
  have := h e he; cases e <;> first | rfl | exact this.elim

theorem filterMap_const_none {α β : Type} (l : List α) : l.filterMap (fun _ => (none : Option β)) = [] := by
  rw [List.filterMap_eq_nil_iff]; exact fun a _ => rfl

theorem assignsOf_outputs (n) (tr acc rej) (o' : Obs Val Env) : assignsOf n (outputs P tr acc rej o') =
    (starts P .assignment tr).filterMap (fun p => if p.1 = n then some ((P.node p.1).rhs p.2) else none) := by
  simp [assignsOf, outputs, List.filterMap_append, List.filterMap_map, Function.comp_def, filterMap_const_none]
theorem retractsOf_outputs (n) (tr acc rej) (o' : Obs Val Env) : retractsOf n (outputs P tr acc rej o') =
    (failings P .assignment tr).filterMap (fun p => if p = n then some (o'.vars (P.node p).dest) else none) := by
  simp [retractsOf, outputs, List.filterMap_append, List.filterMap_map, Function.comp_def, filterMap_const_none]
theorem commandsOf_outputs (n) (tr acc rej) (o' : Obs Val Env) : commandsOf n (outputs P tr acc rej o') =
    acc.filterMap (fun p => if p.1 = n then some (some ((P.node p.1).rhs p.2)) else none) ++
    rej.filterMap (fun p => if p.1 = n then some none else none) := by
  simp [commandsOf, outputs, List.filterMap_append, List.filterMap_map, Function.comp_def, filterMap_const_none]
theorem abortsOf_outputs (n) (tr acc rej) (o' : Obs Val Env) : abortsOf n (outputs P tr acc rej o') =
    (failings P .command tr).filterMap (fun p => if p = n then some () else none) := by
  simp [abortsOf, outputs, List.filterMap_append, List.filterMap_map, Function.comp_def, filterMap_const_none]
theorem updatesOf_outputs (n) (tr acc rej) (o' : Obs Val Env) : updatesOf n (outputs P tr acc rej o') =
    (starts P .update tr).filterMap (fun p => if p.1 = n then some ((P.node p.1).rhs p.2) else none) := by
  simp [updatesOf, outputs, List.filterMap_append, List.filterMap_map, Function.comp_def, filterMap_const_none]

theorem assignsOf_append (n) (a b : List (Event Val Env)) : assignsOf n (a ++ b) = assignsOf n a ++ assignsOf n b := by
  simp [assignsOf, List.filterMap_append]
theorem retractsOf_append (n) (a b : List (Event Val Env)) : retractsOf n (a ++ b) = retractsOf n a ++ retractsOf n b := by
  simp [retractsOf, List.filterMap_append]
theorem commandsOf_append (n) (a b : List (Event Val Env)) : commandsOf n (a ++ b) = commandsOf n a ++ commandsOf n b := by
  simp [commandsOf, List.filterMap_append]
theorem abortsOf_append (n) (a b : List (Event Val Env)) : abortsOf n (a ++ b) = abortsOf n a ++ abortsOf n b := by
  simp [abortsOf, List.filterMap_append]
theorem updatesOf_append (n) (a b : List (Event Val Env)) : updatesOf n (a ++ b) = updatesOf n a ++ updatesOf n b := by
  simp [updatesOf, List.filterMap_append]

/-- The part of the log up to the last end of a macro step is a sequence of complete macro steps. -/
theorem Reach.macros {ph : Phase} {s : St Val Env} (h : Reach P ph s) {A : List (Event Val Env)} {o' C}
    (hl : s.log = A ++ .stepDone o' :: C) : ∃ l C', Macros P l ∧ l = A ++ .stepDone o' :: C' := by
  obtain ⟨before, cur, hlog, hm, hO, _⟩ := h.output
  rw [hlog] at hl
  rcases List.append_eq_append_iff.1 hl with ⟨c, hc1, hc2⟩ | ⟨c, hc1, hc2⟩
  · exfalso
    have := hO.moves (.stepDone o') (by rw [hc2]; simp)
    exact this
  · cases c with
    | nil =>
      simp only [List.nil_append] at hc2
      exfalso
      exact hO.moves (.stepDone o') (by rw [← hc2]; simp)
    | cons x c =>
      simp only [List.cons_append, List.cons.injEq] at hc2
      obtain ⟨rfl, _⟩ := hc2
      exact ⟨before, c, hm, hc1⟩

end Verif.Exec
