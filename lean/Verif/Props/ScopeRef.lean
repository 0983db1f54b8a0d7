import Verif.Scope.RefModel
import Verif.Props.Scope
/-
C134: references to variables: what the checker accepts and what is made of it.
-/
set_option autoImplicit false
namespace Verif.Scope

/-- A node of the document that contains the reference declares the name. -/
def Declared (doc : List Elem) (x : Name) : Prop := ∃ e ∈ doc, ∃ d ∈ e.locals ++ e.ins ++ e.inouts, d.name = x

/-- The nearest declaration. -/
def nearest : List Elem → Name → Option Decl
  | [], _ => none
  | e :: rest, x => match e.decls.find? fun d => decide (d.name = x) with
    | some d => some d
    | none => nearest rest x

theorem nearest_isSome (doc : List Elem) (x : Name) : (nearest doc x).isSome = true ↔ Declared doc x := by
  induction doc with
  | nil => simp [nearest, Declared]
  | cons e doc ih =>
    rw [nearest]
    cases h : e.decls.find? fun d => decide (d.name = x) with
    | some d =>
      have h1 := List.find?_some h
      have h2 := List.mem_of_find?_eq_some h
      simp only [decide_eq_true_eq] at h1
      simp only [Option.isSome_some, true_iff]
      exact ⟨e, by simp, d, h2, h1⟩
    | none =>
      rw [List.find?_eq_none] at h
      simp only
      rw [ih]
      constructor
      · rintro ⟨e', h1, d, h2, h3⟩; exact ⟨e', List.mem_cons_of_mem _ h1, d, h2, h3⟩
      · rintro ⟨e', h1, d, h2, h3⟩
        rcases List.mem_cons.1 h1 with rfl | h1
        · exact absurd (by simpa using h3) (h d h2)
        · exact ⟨e', h1, d, h2, h3⟩

/-- In a node, no name is declared twice. -/
def Distinct (doc : List Elem) : Prop := ∀ e ∈ doc, ∀ d ∈ e.decls, ∀ d' ∈ e.decls, d.name = d'.name → d = d'

theorem nodup_name {l : List Decl} (h : (l.map Decl.name).Nodup) {d d' : Decl} (hd : d ∈ l) (hd' : d' ∈ l) (hn : d.name = d'.name) : d = d' := by
  induction l with
  | nil => cases hd
  | cons a l ih =>
    rw [List.map_cons, List.nodup_cons] at h
    rcases List.mem_cons.1 hd with e1 | h1 <;> rcases List.mem_cons.1 hd' with e2 | h2
    · exact e1.trans e2.symm
    · subst e1; exact absurd (hn ▸ List.mem_map_of_mem h2) h.1
    · subst e2; exact absurd (hn ▸ List.mem_map_of_mem h1) h.1
    · exact ih h.2 h1 h2

theorem accepts_distinct {outer : Env} {depth : Nat} {e : Elem} (h : Accepts outer depth e) : ∀ d ∈ e.decls, ∀ d' ∈ e.decls, d.name = d'.name → d = d' := by
  intro d hd d' hd' hn
  have h := (List.nodup_append.1 h.nodup).1
  refine nodup_name h ?_ ?_ hn
  · simp only [Elem.decls, List.mem_append] at hd ⊢; rcases hd with (a | a) | a <;> simp [a]
  · simp only [Elem.decls, List.mem_append] at hd' ⊢; rcases hd' with (a | a) | a <;> simp [a]

theorem findDecl_nearest {doc : List Elem} (hd : Distinct doc) {x : Name} {d : Decl} (h : nearest doc x = some d) : findDecl d.ty.isArray doc x = some d := by
  induction doc with
  | nil => cases h
  | cons e doc ih =>
    rw [nearest] at h
    rw [findDecl]
    cases hf : e.decls.find? fun d => decide (d.name = x) with
    | some d' =>
      rw [hf] at h
      simp only [Option.some.injEq] at h
      subst h
      have h1 := List.find?_some hf
      have h2 := List.mem_of_find?_eq_some hf
      simp only [decide_eq_true_eq] at h1
      cases hg : e.decls.find? fun d => decide (d.name = x) && decide (d.ty.isArray = d'.ty.isArray) with
      | some d'' =>
        have h3 := List.find?_some hg
        have h4 := List.mem_of_find?_eq_some hg
        simp only [Bool.and_eq_true, decide_eq_true_eq] at h3
        rw [hd e (by simp) d'' h4 d' h2 (h3.1.trans h1.symm)]
      | none =>
        rw [List.find?_eq_none] at hg
        exact absurd (by simp [h1]) (hg d' h2)
    | none =>
      rw [hf] at h
      have hg : e.decls.find? (fun a => decide (a.name = x) && decide (a.ty.isArray = d.ty.isArray)) = none := by
        rw [List.find?_eq_none] at hf ⊢
        intro a ha
        have := hf a ha
        simp only [Bool.and_eq_true, not_and]
        intro g
        exact absurd g this
      rw [hg]
      exact ih (fun e he => hd e (List.mem_cons_of_mem _ he)) h

theorem findDecl_ty {arr : Bool} {doc : List Elem} {x : Name} {d : Decl} (h : findDecl arr doc x = some d) : d.ty.isArray = arr ∧ Declared doc x := by
  induction doc with
  | nil => cases h
  | cons e doc ih =>
    rw [findDecl] at h
    cases hg : e.decls.find? fun d => decide (d.name = x) && decide (d.ty.isArray = arr) with
    | some d' =>
      rw [hg] at h
      cases h
      have h3 := List.find?_some hg
      have h4 := List.mem_of_find?_eq_some hg
      simp only [Bool.and_eq_true, decide_eq_true_eq] at h3
      exact ⟨h3.2, e, by simp, d, h4, h3.1⟩
    | none =>
      rw [hg] at h
      obtain ⟨g1, e', g2, d, g3, g4⟩ := ih h
      exact ⟨g1, e', List.mem_cons_of_mem _ g2, d, g3, g4⟩

theorem declared_decls {e : Elem} {x : Name} : (e.decls.find? fun d => decide (d.name = x)) =
    match declared e.locals x with
    | some d => some d
    | none => match declared e.ins x with
      | some d => some d
      | none => declared e.inouts x := by
  unfold Elem.decls declared
  rw [List.find?_append, List.find?_append]
  cases e.locals.find? fun d => decide (d.name = x) <;> cases e.ins.find? fun d => decide (d.name = x) <;> rfl

/-- What a name means has the type of the nearest declaration in the document. -/
theorem nearest_env (path : List Elem) (ha : AcceptsPath path) {x : Name} {d : Decl} (h : nearest (document path) x = some d) : ∃ b, envAt path x = some b ∧ b.ty = d.ty := by
  induction path with
  | nil => cases h
  | cons e rest ih =>
    obtain ⟨ha1, ha2⟩ := ha
    have hdoc : document (e :: rest) = e :: match rest with
      | [] => []
      | p :: _ => match p.kind with
        | .call _ => []
        | _ => document rest := by cases rest <;> rfl
    rw [hdoc, nearest, declared_decls] at h
    rw [envAt, inside]
    cases h1 : declared e.locals x with
    | some d' =>
      rw [h1] at h
      cases h
      exact ⟨_, rfl, rfl⟩
    | none =>
      rw [h1] at h
      cases h2 : declared e.ins x with
      | some d' =>
        rw [h2] at h
        simp only at h ⊢
        cases h
        obtain ⟨hm, hn⟩ := declared_mem h2
        have hi := ha2.ins d hm
        rw [hn] at hi
        cases ho : outerEnv rest x with
        | some b => rw [ho] at hi; exact ⟨_, rfl, hi⟩
        | none => exact ⟨_, rfl, rfl⟩
      | none =>
        rw [h2] at h
        simp only at h ⊢
        cases h3 : declared e.inouts x with
        | some d' =>
          rw [h3] at h
          simp only at h ⊢
          cases h
          obtain ⟨hm, hn⟩ := declared_mem h3
          have hi := ha2.inouts d hm
          rw [hn] at hi
          cases ho : outerEnv rest x with
          | some b => rw [ho] at hi; exact ⟨_, rfl, hi.1⟩
          | none => exact ⟨_, rfl, rfl⟩
        | none =>
          rw [h3] at h
          simp only at h ⊢
          cases rest with
          | nil => cases h
          | cons p r =>
            simp only at h
            cases hk : p.kind with
            | call args => rw [hk] at h; cases h
            | leaf =>
              rw [hk] at h
              have := ih ha1 h
              rw [outerEnv, hk]
              simpa only [envAt] using this
            | list =>
              rw [hk] at h
              have := ih ha1 h
              rw [outerEnv, hk]
              simpa only [envAt] using this

theorem accepts_doc (path : List Elem) (ha : AcceptsPath path) : Distinct (document path) := by
  have all : ∀ path, AcceptsPath path → Distinct path := by
    intro path
    induction path with
    | nil => intro _ e he; cases he
    | cons e rest ih =>
      intro ha e' he
      rcases List.mem_cons.1 he with rfl | he
      · exact accepts_distinct ha.2
      · exact ih ha.1 e' he
  obtain ⟨above, h⟩ := document_prefix path
  intro e he
  exact all path ha e (by rw [h]; simp [he])

section
variable {path : List Elem} {fs : List Frame}

theorem accepted (hs : ShapedPath path) (hf : frames path = some fs) : AcceptsPath path ∧ ∀ x, (findVariable fs x).map Obj.view = envAt path x :=
  ⟨(c64_lexical_partial path hs).1.1 ⟨fs, hf⟩, (c64_lexical_partial path hs).2 fs hf⟩

/-- **C134.** A reference to a variable of type `t` (Boolean, Integer, Real, String) is accepted if and only if a containing node of the same document declares the name, and the name means a variable of exactly that type
there; and then it is that variable. -/
theorem c134_variable (hs : ShapedPath path) (hf : frames path = some fs) (t : Nat) (x : Name) :
    (((Ref.var t x).parse path fs).isSome = true ↔ t ∈ [1, 2, 3, 4] ∧ Declared (document path) x ∧ ∃ b, envAt path x = some b ∧ b.ty = .scalar t) ∧
    ∀ o, (Ref.var t x).parse path fs = some o → envAt path x = some o.view := by
  obtain ⟨ha, hv⟩ := accepted hs hf
  have hvx := hv x
  have hD := accepts_doc path ha
  refine ⟨⟨fun h => ?_, fun ⟨h1, h2, b, h3, h4⟩ => ?_⟩, fun o h => ?_⟩
  · unfold Ref.parse at h
    split at h
    · next hc =>
      simp only [Ref.check, Bool.and_eq_true, decide_eq_true_eq] at hc
      obtain ⟨hc1, hc2⟩ := hc
      cases hd : findDecl false (document path) x with
      | none => rw [hd] at hc2; cases hc2
      | some d =>
        rw [hd] at hc2
        have hc2 : d.ty = .scalar t := by simpa using hc2
        obtain ⟨_, hdec⟩ := findDecl_ty hd
        refine ⟨hc1, hdec, ?_⟩
        obtain ⟨d', hd'⟩ := Option.isSome_iff_exists.1 ((nearest_isSome _ _).2 hdec)
        obtain ⟨b, hb, hbt⟩ := nearest_env path ha hd'
        have hdn := findDecl_nearest hD hd'
        refine ⟨b, hb, ?_⟩
        cases hty : d'.ty with
        | scalar u =>
          rw [hty] at hdn
          rw [show Ty.isArray (.scalar u) = false from rfl, hd] at hdn
          cases hdn
          rw [hbt]; exact hc2
        | array u =>
          exfalso
          rw [hb] at hvx
          simp only [Ref.make] at h
          cases ho : findVariable fs x with
          | none => rw [ho] at hvx; cases hvx
          | some o =>
            rw [ho] at hvx h
            simp only [Option.map_some, Option.some.injEq] at hvx
            have : o.ty = .array u := by rw [← hty, ← hbt, ← hvx]; rfl
            simp [this] at h
    · cases h
  · obtain ⟨d, hd⟩ := Option.isSome_iff_exists.1 ((nearest_isSome _ _).2 h2)
    obtain ⟨b', hb', hbt⟩ := nearest_env path ha hd
    rw [h3] at hb'
    cases hb'
    have hty : d.ty = .scalar t := hbt.symm.trans h4
    have hdn := findDecl_nearest hD hd
    rw [hty] at hdn
    have hc : (Ref.var t x).check (document path) = true := by
      simp only [Ref.check, Bool.and_eq_true, decide_eq_true_eq]
      refine ⟨h1, ?_⟩
      rw [show Ty.isArray (.scalar t) = false from rfl] at hdn
      rw [hdn]
      simpa using hty
    rw [Ref.parse, if_pos hc, Ref.make]
    rw [h3] at hvx
    cases ho : findVariable fs x with
    | none => rw [ho] at hvx; cases hvx
    | some o =>
      rw [ho] at hvx
      simp only [Option.map_some, Option.some.injEq] at hvx
      have : o.ty = .scalar t := by rw [← h4, ← hvx]; rfl
      simp [this]
  · unfold Ref.parse at h
    split at h
    · simp only [Ref.make] at h
      rw [← hvx]
      cases ho : findVariable fs x with
      | none => rw [ho] at h; cases h
      | some o' =>
        rw [ho] at h
        simp only at h
        split at h
        · cases h; rfl
        · cases h
    · cases h

/-- **C134.** An element of a named array: accepted if and only if a containing node of the same document declares the name, and the name means an array there; and then it is an element of that array. -/
theorem c134_element (hs : ShapedPath path) (hf : frames path = some fs) (x : Name) :
    (((Ref.element x).parse path fs).isSome = true ↔ Declared (document path) x ∧ ∃ b t, envAt path x = some b ∧ b.ty = .array t) ∧
    ∀ o, (Ref.element x).parse path fs = some o → envAt path x = some o.view := by
  obtain ⟨ha, hv⟩ := accepted hs hf
  have hvx := hv x
  have hD := accepts_doc path ha
  refine ⟨⟨fun h => ?_, fun ⟨h2, b, t, h3, h4⟩ => ?_⟩, fun o h => ?_⟩
  · unfold Ref.parse at h
    split at h
    · next hc =>
      obtain ⟨d, hd⟩ := Option.isSome_iff_exists.1 hc
      refine ⟨(findDecl_ty hd).2, ?_⟩
      simp only [Ref.make] at h
      cases ho : findVariable fs x with
      | none => rw [ho] at h; cases h
      | some o =>
        rw [ho] at h hvx
        refine ⟨o.view, ?_⟩
        cases hty : o.ty with
        | scalar u => simp [hty, Ty.isArray] at h
        | array u => exact ⟨u, hvx.symm, hty⟩
    · cases h
  · obtain ⟨d, hd⟩ := Option.isSome_iff_exists.1 ((nearest_isSome _ _).2 h2)
    obtain ⟨b', hb', hbt⟩ := nearest_env path ha hd
    rw [h3] at hb'
    cases hb'
    have hty : d.ty = .array t := hbt.symm.trans h4
    have hdn := findDecl_nearest hD hd
    rw [hty] at hdn
    have hc : (Ref.element x).check (document path) = true := by
      simp only [Ref.check]
      rw [show Ty.isArray (.array t) = true from rfl] at hdn
      rw [hdn]; rfl
    rw [Ref.parse, if_pos hc, Ref.make]
    rw [h3] at hvx
    cases ho : findVariable fs x with
    | none => rw [ho] at hvx; cases hvx
    | some o =>
      rw [ho] at hvx
      simp only [Option.map_some, Option.some.injEq] at hvx
      have : o.ty = .array t := by rw [← h4, ← hvx]; rfl
      simp [this, Ty.isArray]
  · unfold Ref.parse at h
    split at h
    · simp only [Ref.make] at h
      rw [← hvx]
      cases ho : findVariable fs x with
      | none => rw [ho] at h; cases h
      | some o' =>
        rw [ho] at h
        simp only at h
        split at h
        · cases h; rfl
        · cases h
    · cases h

/-- **C134, whole arrays (partial).** A reference to a whole array is accepted if and only if the name means an array there. That the document declares the name is not looked at: see `c134_undeclared_refuted`. -/
theorem c134_array_partial (hs : ShapedPath path) (hf : frames path = some fs) (x : Name) :
    (((Ref.array x).parse path fs).isSome = true ↔ ∃ b t, envAt path x = some b ∧ b.ty = .array t) ∧
    ∀ o, (Ref.array x).parse path fs = some o → envAt path x = some o.view := by
  obtain ⟨ha, hv⟩ := accepted hs hf
  have hvx := hv x
  simp only [Ref.parse, Ref.check, if_true, Ref.make]
  rw [← hvx]
  cases findVariable fs x with
  | none => simp
  | some o =>
    simp only [Option.map_some, Option.some.injEq]
    constructor
    · constructor
      · intro h
        cases hty : o.ty with
        | scalar u => rw [hty] at h; simp [Ty.isArray] at h
        | array u => exact ⟨o.view, u, rfl, hty⟩
      · rintro ⟨b, t, rfl, hb⟩
        have : o.ty = .array t := hb
        simp [this, Ty.isArray]
    · intro o' h
      split at h
      · cases h; rfl
      · cases h

end

/-- A caller with an array `m` and an Integer `n` calls a library that has a variable `t` of its own, and declares nothing else; the names `A` and `N` are passed. (For examples.) -/
def undeclared : List Elem :=
  [ { id := "Lib", kind := .leaf, locals := [⟨"t", .scalar 2, false⟩, ⟨"d", .scalar 5, false⟩] },
    { id := "Call", kind := .call [("A", .var "m"), ("N", .var "n")], kids := ["Lib"] },
    { id := "Root", kind := .list, locals := [⟨"m", .array 2, false⟩, ⟨"n", .scalar 2, false⟩], kids := ["Call"] } ]

/-- **C134 is false of whole arrays**: the library can use the array passed under a name it does not declare. It can not so use a scalar, or an element of the same array. -/
theorem c134_undeclared_refuted : ShapedPath undeclared ∧ ∃ fs, frames undeclared = some fs ∧ ¬ Declared (document undeclared) "A" ∧
    ((Ref.array "A").parse undeclared fs).isSome = true ∧ ((Ref.element "A").parse undeclared fs).isSome = false ∧ ((Ref.var 2 "N").parse undeclared fs).isSome = false := by
  refine ⟨⟨by simp, ⟨by simp, trivial, by simp⟩, by simp⟩, _, rfl, ?_, by decide, by decide, by decide⟩
  rw [← nearest_isSome]
  decide

/-- **C134: a variable of type Date or Duration is useless.** It can be declared (`c103`), but no reference to it is ever accepted: there is none for its type, and one for a Real is refused by the check. -/
theorem c134_date_refuted {path : List Elem} {fs : List Frame} (hs : ShapedPath path) (hf : frames path = some fs) (x : Name) (b : Binding) (hb : envAt path x = some b)
    (ht : b.ty = .scalar 5 ∨ b.ty = .scalar 6) (r : Ref) (hr : r = .element x ∨ r = .array x ∨ ∃ t, r = .var t x) : r.parse path fs = none := by
  cases hp : r.parse path fs with
  | none => rfl
  | some o =>
    exfalso
    rcases hr with rfl | rfl | ⟨t, rfl⟩
    · obtain ⟨_, b', t, h1, h2⟩ := (c134_element hs hf x).1.1 (by rw [hp]; rfl)
      rw [hb] at h1; cases h1
      rw [h2] at ht; simp at ht
    · obtain ⟨b', t, h1, h2⟩ := (c134_array_partial hs hf x).1.1 (by rw [hp]; rfl)
      rw [hb] at h1; cases h1
      rw [h2] at ht; simp at ht
    · obtain ⟨hm, _, b', h1, h2⟩ := (c134_variable hs hf t x).1.1 (by rw [hp]; rfl)
      rw [hb] at h1; cases h1
      rw [h2] at ht
      rcases ht with h | h <;> (cases h; simp at hm)

/-- References that are accepted and references that are not; an inner array hides an outer variable. -/
example : ShapedPath exPath ∧ ∃ fs, frames exPath = some fs ∧ ((Ref.var 1 "Arg").parse exPath fs).isSome = true ∧ ((Ref.var 2 "t").parse exPath fs).isSome = true ∧ (Ref.var 3 "t").parse exPath fs = none ∧
    (Ref.var 1 "m").parse exPath fs = none :=
  ⟨c64_lexical_example.1, _, rfl, by decide, by decide, by decide, by decide⟩

example : let path : List Elem := [ { id := "A", locals := [⟨"x", .array 2, false⟩] }, { id := "R", kind := .list, locals := [⟨"x", .scalar 2, false⟩], kids := ["A"] } ]
    ∃ fs, frames path = some fs ∧ (Ref.var 2 "x").check (document path) = true ∧ (Ref.var 2 "x").parse path fs = none ∧ ((Ref.element "x").parse path fs).isSome = true :=
  ⟨_, rfl, by decide, by decide, by decide⟩

/-- The hypotheses of `c134_date_refuted` are met. -/
example : ∃ b, envAt undeclared "d" = some b ∧ b.ty = .scalar 5 := ⟨⟨.var 2 "d", .scalar 5, true⟩, by decide, rfl⟩

end Verif.Scope
