import Verif.NodeType.Model
set_option autoImplicit false
/-!
C157: a node is of the type its element says.
-/
namespace Verif.NodeType

/-- The names a plan may use, and what they mean. -/
def table : List (Text × Ty) :=
  [("Assignment".toList, .assignment), ("Command".toList, .command), ("Empty".toList, .empty), ("LibraryNodeCall".toList, .library), ("NodeList".toList, .list), ("Update".toList, .update)]

/-- **C157, names.**  A text is the name of a type exactly if it is in the table; every other text is an error. -/
theorem c157_parse (s : Text) (t : Ty) (ht : t ≠ .error) : parse s = t ↔ (s, t) ∈ table := by
  constructor
  · intro h
    unfold parse at h
    cases s with
    | nil => exact absurd h.symm ht
    | cons c r =>
      simp only [List.head?_cons] at h
      by_cases h1 : c = 'A'
      · rw [if_pos h1] at h; split at h
        · rename_i e; rw [e, ← h]; decide
        · exact absurd h.symm ht
      rw [if_neg h1] at h
      by_cases h2 : c = 'C'
      · rw [if_pos h2] at h; split at h
        · rename_i e; rw [e, ← h]; decide
        · exact absurd h.symm ht
      rw [if_neg h2] at h
      by_cases h3 : c = 'E'
      · rw [if_pos h3] at h; split at h
        · rename_i e; rw [e, ← h]; decide
        · exact absurd h.symm ht
      rw [if_neg h3] at h
      by_cases h4 : c = 'L'
      · rw [if_pos h4] at h; split at h
        · rename_i e; rw [e, ← h]; decide
        · exact absurd h.symm ht
      rw [if_neg h4] at h
      by_cases h5 : c = 'N'
      · rw [if_pos h5] at h; split at h
        · rename_i e; rw [e, ← h]; decide
        · exact absurd h.symm ht
      rw [if_neg h5] at h
      by_cases h6 : c = 'U'
      · rw [if_pos h6] at h; split at h
        · rename_i e; rw [e, ← h]; decide
        · exact absurd h.symm ht
      rw [if_neg h6] at h
      exact absurd h.symm ht
  · intro h
    simp only [table, List.mem_cons, Prod.mk.injEq, List.not_mem_nil, or_false] at h
    rcases h with ⟨rfl, rfl⟩ | ⟨rfl, rfl⟩ | ⟨rfl, rfl⟩ | ⟨rfl, rfl⟩ | ⟨rfl, rfl⟩ | ⟨rfl, rfl⟩ <;> decide

/-- **C157, printing and reading.**  Every type that has a name has just one, which reads as the type. -/
theorem c157_round (t : Ty) (n : Text) : nodeTypeString t = some n ↔ (n, t) ∈ table := by
  have hn : nodeTypeString t = (match t with | .list => some LIST | .command => some COMMAND | .assignment => some ASSIGNMENT | .update => some UPDATE | .empty => some EMPTY | .library => some LIBRARYNODECALL | _ => none) := by
    cases t <;> rfl
  rw [hn]
  have he : ∀ m : Text, some m = some n ↔ n = m := fun m => by rw [Option.some.injEq, eq_comm]
  cases t <;> simp only [table, List.mem_cons, Prod.mk.injEq, reduceCtorEq, and_false, and_true, false_or, or_false, List.not_mem_nil, he] <;> exact Iff.rfl

theorem no_error (n : Text) : (n, Ty.error) ∉ table := by
  simp only [table, List.mem_cons, Prod.mk.injEq, reduceCtorEq, and_false, or_false, List.not_mem_nil, not_false_eq_true]
theorem no_uninitialized (n : Text) : (n, Ty.uninitialized) ∉ table := by
  simp only [table, List.mem_cons, Prod.mk.injEq, reduceCtorEq, and_false, or_false, List.not_mem_nil, not_false_eq_true]

theorem made {s : St} (hs : (if s.inited then s else s.initialize).slots = (({} : St).initialize).slots) (t : Ty) (h1 : t ≠ .error) (h2 : t ≠ .uninitialized) : ∃ c, (s.create t).2 = .node c ∧ c.getType = t := by
  have hi : 0 < t.index ∧ t.index < Ty.error.index := by cases t <;> first | exact absurd rfl h1 | exact absurd rfl h2 | decide
  have ht : ∃ c, (({} : St).initialize).slots t = .live c ∧ c.getType = t := by
    cases t <;> first | exact absurd rfl h1 | exact absurd rfl h2 | exact ⟨_, rfl, rfl⟩
  obtain ⟨c, hc, ht⟩ := ht
  refine ⟨c, ?_, ht⟩
  simp only [St.create, if_pos hi, hs, hc]

theorem after_slots (ts : List Ty) : ∀ s : St, (s.inited = true → s.slots = (({} : St).initialize).slots) → (s.inited = false → s.slots = ({} : St).slots) →
    ((s.after ts).inited = true → (s.after ts).slots = (({} : St).initialize).slots) ∧ ((s.after ts).inited = false → (s.after ts).slots = ({} : St).slots) := by
  induction ts with
  | nil => intro s h1 h2; exact ⟨h1, h2⟩
  | cons t r ih =>
    intro s h1 h2
    apply ih
    · intro h
      simp only [St.create] at h ⊢
      split
      · cases hi : s.inited with
        | true => simpa [hi] using h1 hi
        | false => simp only [Bool.false_eq_true, if_false, St.initialize, h2 hi]
      · rename_i hn; rw [if_neg hn] at h; exact h1 h
    · intro h
      simp only [St.create] at h ⊢
      split
      · rename_i hn
        rw [if_pos hn] at h
        cases hi : s.inited with
        | true => simp [hi] at h
        | false => rw [hi] at h; cases h
      · rename_i hn; rw [if_neg hn] at h; exact h2 h

/-- **C157, the right node.**  After any nodes have been made, an element with a name of the table makes a node whose type has this name; an element with another name is refused. -/
theorem c157_node (ts : List Ty) (n : Text) :
    match (({} : St).after ts).createNamed n with
    | some (_, m) => ∃ c, m = .node c ∧ nodeTypeString c.getType = some n
    | none => ∀ t, (n, t) ∉ table := by
  obtain ⟨h1, h2⟩ := after_slots ts {} (fun h => by cases h) (fun _ => rfl)
  by_cases he : parse n = .error
  · have : (({} : St).after ts).createNamed n = none := by
      unfold St.createNamed
      rw [he]; rfl
    rw [this]
    intro t ht
    have hne : t ≠ .error := by
      rintro rfl
      exact no_error n ht
    have := (c157_parse n t hne).2 ht
    rw [he] at this; exact hne this.symm
  · have hm := (c157_parse n _ he).1 rfl
    have hs : ((if (({} : St).after ts).inited then ({} : St).after ts else (({} : St).after ts).initialize).slots) = (({} : St).initialize).slots := by
      cases hi : (({} : St).after ts).inited with
      | true => simpa using h1 hi
      | false => simp only [Bool.false_eq_true, if_false, St.initialize, h2 hi]
    have hr := (c157_round (parse n) n).2 hm
    have hu : parse n ≠ .uninitialized := by
      intro e
      rw [e] at hm
      exact no_uninitialized n hm
    obtain ⟨c, hc, ht⟩ := made hs (parse n) he hu
    have hlt : (parse n).index < Ty.error.index := by
      generalize parse n = t at he
      cases t <;> first | exact absurd rfl he | decide
    have : (({} : St).after ts).createNamed n = some ((({} : St).after ts).create (parse n)) := by
      unfold St.createNamed
      rw [if_pos hlt]
    rw [this]
    exact ⟨c, hc, by rw [ht]; exact hr⟩

/-- **C157 is false after the finalizers have run**: the array keeps the deleted factories, and a node is then made with one of them. -/
theorem c157_finalized_refuted : ((({} : St).create .empty).1.purge.create .empty).2 = .useAfterFree := by decide

/-- A list, then a command. -/
theorem c157_example : ((({} : St).after [.list, .command]).createNamed "Update".toList).map (·.2) = some (.node .UpdateNode) ∧ ((({} : St).after [.list]).createNamed "update".toList).isNone = true := by decide

end Verif.NodeType
