import Verif.Scope.Lemmas
import Mathlib.Logic.Relation
import Mathlib.Data.List.Nodup
/-!
Names in plans: C64 (lexical scope of variables), C65 (read-only parameters), C66 (mutex names), C67 (node references), C68 (expansion of library calls).
A path is the list of the elements from a node to the root of the plan, nearest first.
-/
namespace Verif.Scope

/-! ## C64 -/

/-- **C64 (partial).**  For every path in which each called library whose root is a list declares a variable there: the parser accepts the declarations exactly
when the language does, and then every name in the node designates the variable (or expression), with the type and the access rights, that lexical scoping
gives it.  The hypothesis on the roots of libraries is needed (`c64_bare_root`); without it the property is false. -/
theorem c64_lexical_partial (path : List Elem) (hs : ShapedPath path) :
    ((∃ fs, frames path = some fs) ↔ AcceptsPath path) ∧
    ∀ fs, frames path = some fs → ∀ x, (findVariable fs x).map Obj.view = envAt path x := by
  obtain ⟨h1, h2⟩ := path_spec path hs
  by_cases ha : AcceptsPath path
  · obtain ⟨fs, hf, hv⟩ := h1 ha
    refine ⟨⟨fun _ => ha, fun _ => ⟨fs, hf⟩⟩, fun fs' hf' => ?_⟩
    rw [hf] at hf'; injection hf' with hf'; subst hf'; exact hv
  · have := h2 ha
    refine ⟨⟨?_, fun h => absurd h ha⟩, fun fs hf => ?_⟩
    · rintro ⟨fs, hf⟩; rw [this] at hf; cases hf
    · rw [this] at hf; cases hf

/-- A name that no node of the called library on the path declares, and that the call does not pass, means nothing in the library. -/
theorem envAt_closed (path : List Elem) (p : Elem) (above : List Elem) (args : List (Name × Arg)) (hk : p.kind = .call args)
    (hp : ∀ e ∈ path, e.kind = .list ∨ e.kind = .leaf) (x : Name)
    (hx : ∀ e ∈ path, x ∉ (e.locals ++ e.ins ++ e.inouts).map Decl.name) (ha : x ∉ args.map Prod.fst) (hne : path ≠ []) :
    envAt (path ++ p :: above) x = none := by
  have inner : ∀ (path : List Elem), (∀ e ∈ path, e.kind = .list ∨ e.kind = .leaf) →
      (∀ e ∈ path, x ∉ (e.locals ++ e.ins ++ e.inouts).map Decl.name) → outerEnv (path ++ p :: above) x = none := by
    intro path
    induction path with
    | nil =>
      intro _ _
      rw [List.nil_append, outerEnv, hk]
      simp only [passed]
      have : args.lookup x = none := by
        rw [List.lookup_eq_none_iff]
        intro q hq
        simp only [bne_iff_ne, ne_eq]
        exact fun h => ha (h ▸ List.mem_map_of_mem hq)
      rw [this]
    | cons e rest ih =>
      intro hk' hx'
      have hi := ih (fun e he => hk' e (List.mem_cons_of_mem _ he)) (fun e he => hx' e (List.mem_cons_of_mem _ he))
      have he := hx' e (by simp)
      simp only [List.map_append, List.mem_append, not_or] at he
      have : inside (outerEnv (rest ++ p :: above)) (rest ++ p :: above).length e x = none := by
        simp only [inside, declared_none.mpr he.1.1, declared_none.mpr he.1.2, declared_none.mpr he.2, hi]
      rw [List.cons_append, outerEnv]
      rcases hk' e (by simp) with h | h <;> rw [h] <;> exact this
  cases path with
  | nil => exact absurd rfl hne
  | cons e rest =>
    have hi := inner rest (fun e he => hp e (List.mem_cons_of_mem _ he)) (fun e he => hx e (List.mem_cons_of_mem _ he))
    have he := hx e (by simp)
    simp only [List.map_append, List.mem_append, not_or] at he
    rw [List.cons_append, envAt]
    simp only [inside, declared_none.mpr he.1.1, declared_none.mpr he.1.2, declared_none.mpr he.2, hi]

/-- **C64 (partial), libraries are closed.**  A node inside a library cannot name a variable of the caller it was not passed: whatever the caller and its
ancestors declare. -/
theorem c64_library_closed_partial (path : List Elem) (p : Elem) (above : List Elem) (args : List (Name × Arg)) (hk : p.kind = .call args)
    (hs : ShapedPath (path ++ p :: above)) (hp : ∀ e ∈ path, e.kind = .list ∨ e.kind = .leaf) (hne : path ≠ []) (x : Name)
    (hx : ∀ e ∈ path, x ∉ (e.locals ++ e.ins ++ e.inouts).map Decl.name) (ha : x ∉ args.map Prod.fst)
    (fs : List Frame) (hf : frames (path ++ p :: above) = some fs) : findVariable fs x = none := by
  have := (c64_lexical_partial _ hs).2 fs hf x
  rw [envAt_closed path p above args hk hp x hx ha hne] at this
  simpa using this

/-- **C64 (partial), shadowing.**  A variable declared in a node is what its name means there, whatever the ancestors declare: no hypothesis on libraries. -/
theorem c64_own_variable (e : Elem) (anc : List Frame) (f : Frame) (hf : e.frame anc = some f) (d : Decl) (hd : d ∈ e.locals) :
    findVariable (f :: anc) d.name = some (.var anc.length d.name d.ty) := by
  obtain ⟨h1, h2⟩ := frame_spec anc e
  by_cases ha : Accepts (outerView anc) anc.length e
  · obtain ⟨f', hf', -, -, hv, -⟩ := h1 ha
    rw [hf] at hf'; injection hf' with hf'; subst hf'
    have := hv d.name
    have hnd : (e.locals.map Decl.name).Nodup := by
      have := ha.nodup
      rw [List.map_append, List.map_append] at this
      exact (List.nodup_append.mp (List.nodup_append.mp this).1).2.1
    cases hdl : declared e.locals d.name with
    | none => exact absurd (List.mem_map_of_mem hd) (declared_none.mp hdl)
    | some d' =>
      obtain ⟨hd', hn⟩ := declared_mem hdl
      have hdd : d' = d := List.inj_on_of_nodup_map hnd hd' hd hn
      subst hdd
      rw [inside, hdl] at this
      cases ho : findVariable (f :: anc) d'.name with
      | none => rw [ho] at this; cases this
      | some o =>
        rw [ho] at this
        simp only [Option.map_some, Option.some.injEq, Obj.view, Binding.mk.injEq] at this
        obtain ⟨h3, h4, h5⟩ := this
        cases o with
        | var a b c => simp only [Obj.cell, Cell.var.injEq] at h3; obtain ⟨rfl, rfl⟩ := h3; simp only [Obj.ty] at h4; subst h4; rfl
        | expr => simp [Obj.assignable] at h5
        | «alias» => simp [Obj.assignable] at h5
  · rw [h2 ha] at hf; cases hf

/-- A caller with variable `n` calls a library (`Lib`, passing `Arg := m`) whose root is a list that declares an `In` variable; a node inside reads it. -/
def exPath : List Elem :=
  [ { id := "Inner", kind := .leaf, locals := [⟨"t", .scalar 2, false⟩] },
    { id := "Lib", kind := .list, ins := [⟨"Arg", .scalar 1, false⟩], kids := ["Inner"] },
    { id := "Call", kind := .call [("Arg", .var "m")], kids := ["Lib"] },
    { id := "Root", kind := .list, locals := [⟨"m", .scalar 1, false⟩, ⟨"n", .scalar 1, false⟩], kids := ["Call"] } ]

/-- The hypotheses of the theorems hold, the plan is accepted, and the names mean what they should. -/
theorem c64_lexical_example : ShapedPath exPath ∧ (frames exPath).isSome = true ∧
    envAt exPath "Arg" = some ⟨.var 0 "m", .scalar 1, false⟩ ∧ envAt exPath "t" = some ⟨.var 3 "t", .scalar 2, true⟩ ∧
    envAt exPath "n" = none ∧ envAt exPath "m" = none := by
  refine ⟨⟨by simp, ⟨by simp, ⟨by simp, trivial, by simp⟩, by simp⟩, by simp⟩, by decide, by decide, by decide, by decide, by decide⟩

/-- The library's root list declares nothing (its child, `Lib`'s second level, declares the `In` variable). -/
def bareRoot : List Elem :=
  [ { id := "Inner", kind := .leaf, ins := [⟨"x", .scalar 1, false⟩] },
    { id := "Lib", kind := .list, kids := ["Inner"] },
    { id := "Call", kind := .call [("x", .var "m")], kids := ["Lib"] },
    { id := "Root", kind := .list, locals := [⟨"m", .scalar 1, false⟩, ⟨"x", .scalar 1, false⟩], kids := ["Call"] } ]

/-- **C64 is false in general**: with a library whose root list declares no variable, `x` inside the library is the caller's variable `x` although the call
passes the caller's `m` under that name (`ListNode.cc:224-231` passes over the call's alias map). -/
theorem c64_bare_root : ∃ fs, frames bareRoot = some fs ∧
    (findVariable fs "x").map Obj.view = some ⟨.var 0 "x", .scalar 1, false⟩ ∧
    envAt bareRoot "x" = some ⟨.var 0 "m", .scalar 1, false⟩ := by
  refine ⟨_, rfl, by decide, by decide⟩

/-- And a library can then name a variable of the caller that it is not passed at all. -/
theorem c64_bare_root_open : ∃ fs, frames (bareRoot.map fun e => if e.id = "Call" then { e with kind := .call [] } else e) = some fs ∧
    (findVariable fs "m").isSome = true := by
  refine ⟨_, rfl, by decide⟩

/-! ## C65 -/

/-- What may be written by name is what is writable in the scope. -/
theorem target_spec (path : List Elem) (hs : ShapedPath path) (fs : List Frame) (hf : frames path = some fs) (x : Name) :
    (target fs x).map Obj.view = match envAt path x with
      | some b => if b.writable then some b else none
      | none => none := by
  have := (c64_lexical_partial path hs).2 fs hf x
  rw [← this]
  unfold target
  cases h : findVariable fs x with
  | none => rfl
  | some o =>
    simp only [Option.map_some, Obj.view]
    cases ho : o.assignable <;> simp [Obj.view, ho]

/-- **C65 (partial), where declared.**  An `In` variable cannot be the target of an assignment to the variable, in the node that declares it; no
hypothesis on libraries. -/
theorem c65_in_not_assignable_partial (e : Elem) (anc : List Frame) (f : Frame) (hf : e.frame anc = some f) (d : Decl) (hd : d ∈ e.ins) :
    (findVariable (f :: anc) d.name).isSome ∧ target (f :: anc) d.name = none := by
  obtain ⟨h1, h2⟩ := frame_spec anc e
  by_cases ha : Accepts (outerView anc) anc.length e
  rotate_left
  · rw [h2 ha] at hf; cases hf
  obtain ⟨f', hf', -, -, hv, -⟩ := h1 ha
  rw [hf] at hf'; injection hf' with hf'; subst hf'
  have hv := hv d.name
  have hl : declared e.locals d.name = none := by
    rw [declared_none]
    have := ha.nodup
    rw [List.map_append, List.map_append] at this
    exact fun hc => (List.nodup_append.mp (List.nodup_append.mp this).1).2.2 _ (List.mem_append_left _ (List.mem_map_of_mem hd)) _ hc rfl
  have hi : ∃ d', declared e.ins d.name = some d' := by
    cases h : declared e.ins d.name with
    | none => exact absurd (List.mem_map_of_mem hd) (declared_none.mp h)
    | some d' => exact ⟨d', rfl⟩
  obtain ⟨d', hi⟩ := hi
  have hw : ∃ b, (findVariable (f :: anc) d.name).map Obj.view = some b ∧ b.writable = false := by
    rw [hv, inside, hl, hi]
    cases outerView anc d.name with
    | none => exact ⟨_, rfl, rfl⟩
    | some b => exact ⟨_, rfl, rfl⟩
  obtain ⟨b, hb, hw⟩ := hw
  unfold target
  cases ho : findVariable (f :: anc) d.name with
  | none => rw [ho] at hb; cases hb
  | some o =>
    rw [ho] at hb
    simp only [Option.map_some, Option.some.injEq] at hb
    subst hb
    have : o.assignable = false := hw
    simp [this]

/-- **C65 (partial), below.**  Nor can it be in any node below in the same document, unless a node between declares another variable of that name. -/
theorem c65_in_below_partial (below : List Elem) (e : Elem) (above : List Elem) (hs : ShapedPath (below ++ e :: above))
    (fs : List Frame) (hf : frames (below ++ e :: above) = some fs) (d : Decl) (hd : d ∈ e.ins)
    (hk : ∀ b ∈ below, b.kind = .list ∨ b.kind = .leaf) (he : e.kind = .list ∨ e.kind = .leaf)
    (hb : ∀ b ∈ below, d.name ∉ b.locals.map Decl.name) : target fs d.name = none := by
  have hacc := (c64_lexical_partial _ hs).1.mp ⟨fs, hf⟩
  have key : ∀ below : List Elem, AcceptsPath (below ++ e :: above) → (∀ b ∈ below, b.kind = .list ∨ b.kind = .leaf) →
      (∀ b ∈ below, d.name ∉ b.locals.map Decl.name) →
      outerEnv (below ++ e :: above) = envAt (below ++ e :: above) ∧ ∃ b, envAt (below ++ e :: above) d.name = some b ∧ b.writable = false := by
    intro below
    induction below with
    | nil =>
      rintro ⟨-, ha⟩ - -
      rw [List.nil_append]
      refine ⟨by rw [outerEnv, envAt]; rcases he with h | h <;> rw [h], ?_⟩
      have hl : declared e.locals d.name = none := by
        rw [declared_none]
        have := ha.nodup
        rw [List.map_append, List.map_append] at this
        exact fun hc => (List.nodup_append.mp (List.nodup_append.mp this).1).2.2 _ (List.mem_append_left _ (List.mem_map_of_mem hd)) _ hc rfl
      have hi : ∃ d', declared e.ins d.name = some d' := by
        cases h : declared e.ins d.name with
        | none => exact absurd (List.mem_map_of_mem hd) (declared_none.mp h)
        | some d' => exact ⟨d', rfl⟩
      obtain ⟨d', hi⟩ := hi
      rw [envAt, inside, hl, hi]
      cases outerEnv above d.name with
      | none => exact ⟨_, rfl, rfl⟩
      | some b => exact ⟨_, rfl, rfl⟩
    | cons c rest ih =>
      rintro ⟨ha1, ha2⟩ hk hb
      obtain ⟨heq, b, hbe, hbw⟩ := ih ha1 (fun b h => hk b (List.mem_cons_of_mem _ h)) (fun b h => hb b (List.mem_cons_of_mem _ h))
      rw [List.cons_append]
      refine ⟨by rw [outerEnv, envAt]; rcases hk c (by simp) with h | h <;> rw [h], ?_⟩
      rw [envAt, inside, declared_none.mpr (hb c (by simp)), heq, hbe]
      cases hi : declared c.ins d.name with
      | some d' => exact ⟨_, rfl, rfl⟩
      | none =>
        cases ho : declared c.inouts d.name with
        | none => exact ⟨b, rfl, hbw⟩
        | some d' =>
          obtain ⟨hm, hn⟩ := declared_mem ho
          have := ha2.inouts d' hm
          rw [hn] at this
          rw [show (rest.append (e :: above)) = rest ++ e :: above from rfl, heq, hbe] at this
          have h2 := this.2
          rw [hbw] at h2; cases h2
  obtain ⟨-, b, hb1, hb2⟩ := key below hacc hk hb
  have := target_spec _ hs fs hf d.name
  rw [hb1] at this
  simpa [hb2] using this

/-- `InOut`: what an assignment to it writes is the variable passed (here: the variable of that name outside), unless the default is used. -/
theorem c65_inout_writes_outer (e : Elem) (rest : List Elem) (hs : ShapedPath (e :: rest)) (fs : List Frame) (hf : frames (e :: rest) = some fs)
    (d : Decl) (hd : d ∈ e.inouts) (b : Binding) (hb : outerEnv rest d.name = some b) : (target fs d.name).map Obj.view = some b := by
  have hacc := ((c64_lexical_partial _ hs).1.mp ⟨fs, hf⟩).2
  have hnd := hacc.nodup
  rw [List.map_append, List.map_append] at hnd
  have hnd := List.nodup_append.mp (List.nodup_append.mp hnd).1
  have hl : declared e.locals d.name = none := declared_none.mpr
    (fun hc => hnd.2.2 _ (List.mem_append_right _ (List.mem_map_of_mem hd)) _ hc rfl)
  have hi : declared e.ins d.name = none := declared_none.mpr
    (fun hc => (List.nodup_append.mp hnd.1).2.2 _ hc _ (List.mem_map_of_mem hd) rfl)
  have := target_spec _ hs fs hf d.name
  rw [this, envAt, inside, hl, hi, hb]
  have hok := hacc.inouts d hd
  rw [hb] at hok
  cases declared e.inouts d.name <;> simp [hok.2]

/-- The hypotheses of the `InOut` theorem are met. -/
theorem c65_inout_example : ∃ fs, frames
    [ { id := "Lib", kind := .leaf, inouts := [⟨"a", .scalar 1, false⟩] },
      { id := "Call", kind := .call [("a", .var "m")], kids := ["Lib"] },
      { id := "Root", kind := .list, locals := [⟨"m", .scalar 1, false⟩], kids := ["Call"] } ] = some fs ∧
    target fs "a" = some (.var 0 "m" (.scalar 1)) := ⟨_, rfl, by decide⟩

/-- **C65 is false for elements of arrays**: a library given an array as an `In` parameter can assign to its elements, and that changes the caller's array
(`ArrayReferenceFactory.cc:184-189`, `ArrayReference.cc:230`). -/
theorem c65_element_written : ∃ fs, frames
    [ { id := "Lib", kind := .leaf, ins := [⟨"a", .array 1, false⟩] },
      { id := "Call", kind := .call [("a", .var "m")], kids := ["Lib"] },
      { id := "Root", kind := .list, locals := [⟨"m", .array 1, false⟩], kids := ["Call"] } ] = some fs ∧
    target fs "a" = none ∧ elementTarget fs "a" = some (.var 0 "m" (.array 1)) := ⟨_, rfl, by decide, by decide⟩

/-! ## C66 -/

/-- The path is the part in the document and the part above it. -/
theorem document_prefix (path : List Elem) : ∃ above, path = document path ++ above := by
  induction path with
  | nil => exact ⟨[], rfl⟩
  | cons e rest ih =>
    obtain ⟨above, h⟩ := ih
    cases rest with
    | nil => exact ⟨[], rfl⟩
    | cons p r =>
      rw [document]
      cases hk : p.kind with
      | call args => exact ⟨p :: r, by simp⟩
      | leaf => exact ⟨above, by simp only [List.cons_append, ← h]⟩
      | list => exact ⟨above, by simp only [List.cons_append, ← h]⟩

/-- `findMutex` along a path. -/
theorem findMutex_append (globals : List Name) (a b : List Elem) (m : Name) (h : ∀ e ∈ a, m ∉ e.mutexes) :
    findMutex globals (a ++ b) m = findMutex globals b m := by
  induction a with
  | nil => rfl
  | cons e a ih =>
    rw [List.cons_append, findMutex, if_neg (h e (by simp)), ih (fun e he => h e (List.mem_cons_of_mem _ he))]

/-- **C66 (partial).**  A mutex name accepted by the parser always designates a mutex; if a node of the same document that contains the user declares it, the nearest
such; if not, the global mutex — provided no node above the library call declares a mutex of the same name (needed: `c66_captured`). -/
theorem c66_mutex_partial (globals docGlobals : List Name) (hg : ∀ m ∈ docGlobals, m ∈ globals) (path : List Elem) (m : Name)
    (hok : mutexInScope docGlobals path m = true) :
    (∃ r, findMutex globals path m = some r) ∧
    (∀ pre e post, path = pre ++ e :: post → pre.length < (document path).length → (∀ c ∈ pre, m ∉ c.mutexes) → m ∈ e.mutexes →
      findMutex globals path m = some (.local post.length m)) ∧
    ((∀ e ∈ path, m ∉ e.mutexes) → m ∈ docGlobals ∧ findMutex globals path m = some (.global m)) := by
  refine ⟨?_, ?_, ?_⟩
  · rw [mutexInScope, Bool.or_eq_true, List.any_eq_true] at hok
    obtain ⟨above, habove⟩ := document_prefix path
    have : ∀ l : List Elem, ((∃ e ∈ l, m ∈ e.mutexes) ∨ m ∈ globals) → ∃ r, findMutex globals l m = some r := by
      intro l
      induction l with
      | nil =>
        rintro (⟨e, he, -⟩ | h)
        · cases he
        · exact ⟨_, by rw [findMutex, if_pos h]⟩
      | cons e l ih =>
        intro h
        by_cases hm : m ∈ e.mutexes
        · exact ⟨_, by rw [findMutex, if_pos hm]⟩
        · rw [findMutex, if_neg hm]
          apply ih
          rcases h with ⟨e', he', hm'⟩ | h
          · rcases List.mem_cons.mp he' with rfl | he'
            · exact absurd hm' hm
            · exact .inl ⟨e', he', hm'⟩
          · exact .inr h
    apply this
    rcases hok with ⟨e, he, hm⟩ | hm
    · exact .inl ⟨e, by rw [habove]; exact List.mem_append_left _ he, of_decide_eq_true hm⟩
    · exact .inr (hg m (of_decide_eq_true hm))
  · rintro pre e post rfl - hpre hm
    rw [findMutex_append globals pre _ m hpre, findMutex, if_pos hm]
  · intro hno
    have hd : m ∈ docGlobals := by
      rw [mutexInScope, Bool.or_eq_true, List.any_eq_true] at hok
      rcases hok with ⟨e, he, hm⟩ | hm
      · obtain ⟨above, habove⟩ := document_prefix path
        exact absurd (of_decide_eq_true hm) (hno e (by rw [habove]; exact List.mem_append_left _ he))
      · exact of_decide_eq_true hm
    refine ⟨hd, ?_⟩
    have := findMutex_append globals path [] m hno
    rw [List.append_nil] at this
    rw [this, findMutex, if_pos (hg m hd)]

/-- A library uses the global mutex `m`; the caller's root has a mutex `m` of its own. -/
def captured : List Elem :=
  [ { id := "Lib", kind := .leaf },
    { id := "Call", kind := .call [], kids := ["Lib"] },
    { id := "Root", kind := .list, mutexes := ["m"], kids := ["Call"] } ]

/-- **C66 is false in general**: the library gets the caller's local mutex, not the global one its document declares (`NodeImpl.cc:1647-1679`). -/
theorem c66_captured : mutexInScope ["m"] captured "m" = true ∧ (∀ e ∈ document captured, "m" ∉ e.mutexes) ∧
    findMutex ["m"] captured "m" = some (.local 0 "m") := by decide

/-- The hypotheses of the theorem are met: a local mutex shadowing a global one, and a global one. -/
theorem c66_example : mutexInScope ["g", "m"] [{ id := "A" }, { id := "R", kind := .list, mutexes := ["m"], kids := ["A"] }] "m" = true ∧
    findMutex ["g", "m"] [{ id := "A" }, { id := "R", kind := .list, mutexes := ["m"], kids := ["A"] }] "m" = some (.local 0 "m") ∧
    findMutex ["g", "m"] [{ id := "A" }, { id := "R", kind := .list, mutexes := ["m"], kids := ["A"] }] "g" = some (.global "g") := by decide

/-! ## C67 -/

/-- A node that has the id, or has a child that has it. -/
def Elem.knows (e : Elem) (x : Name) : Prop := e.id = x ∨ x ∈ e.kids

/-- **C67, by id.**  A node reference by id accepted by the parser designates a node, without internal error: with `e` the nearest ancestor (or the node itself) that has
the id or has a child that has it, `e` itself if it has the id, otherwise its child; and `e` is in the same document. -/
theorem c67_node_id (path : List Elem) (x : Name) (h : checkNodeId path x = true) :
    ∃ pre e post, path = pre ++ e :: post ∧ (∀ c ∈ pre, ¬ c.knows x) ∧ e.knows x ∧ pre.length < (document path).length ∧
      parseNodeId path x = some (if e.id = x then .self post.length else .child post.length x) := by
  rw [checkNodeId, Bool.and_eq_true, List.any_eq_true] at h
  obtain ⟨-, e, he, hm⟩ := h
  rw [Bool.or_eq_true, decide_eq_true_eq, decide_eq_true_eq] at hm
  obtain ⟨above, habove⟩ := document_prefix path
  have key : ∀ (doc : List Elem), (∃ e ∈ doc, e.knows x) → ∃ pre e post, doc ++ above = pre ++ e :: post ∧ (∀ c ∈ pre, ¬ c.knows x) ∧ e.knows x ∧
      pre.length < doc.length ∧ parseNodeId (doc ++ above) x = some (if e.id = x then .self post.length else .child post.length x) := by
    intro doc
    induction doc with
    | nil => rintro ⟨e, he, -⟩; cases he
    | cons c doc ih =>
      rintro ⟨e, he, hm⟩
      by_cases hc : c.knows x
      · refine ⟨[], c, doc ++ above, rfl, by simp, hc, by simp, ?_⟩
        rw [List.cons_append, parseNodeId]
        by_cases h1 : c.id = x
        · simp [h1]
        · have : x ∈ c.kids := hc.resolve_left h1
          simp [h1, this]
      · have he' : e ∈ doc := by
          rcases List.mem_cons.mp he with rfl | he
          · exact absurd hm hc
          · exact he
        obtain ⟨pre, e', post, h1, h2, h3, h4, h5⟩ := ih ⟨e, he', hm⟩
        refine ⟨c :: pre, e', post, by simp [h1], ?_, h3, by simp [h4], ?_⟩
        · intro c' hc'
          rcases List.mem_cons.mp hc' with rfl | hc'
          · exact hc
          · exact h2 c' hc'
        · rw [List.cons_append, parseNodeId, if_neg (fun h => hc (.inl h)), if_neg (fun h => hc (.inr h)), h5]
  obtain ⟨pre, e', post, h1, h2, h3, h4, h5⟩ := key (document path) ⟨e, he, hm⟩
  rw [← habove] at h1 h5
  exact ⟨pre, e', post, h1, h2, h3, h4, h5⟩

/-- **C67, by direction.**  A directional node reference accepted by the parser designates the node itself, its parent, the child or the sibling (the child of the parent) of that
id, without internal error; and a parent or sibling is always in the same document. -/
theorem c67_node_ref (path : List Elem) (d : Dir) (h : checkNodeRef path d = true) :
    match d with
    | .self => ∃ e rest, path = e :: rest ∧ parseNodeRef path d = some (.self rest.length)
    | .parent => ∃ e p rest, path = e :: p :: rest ∧ (∀ args, p.kind ≠ .call args) ∧ parseNodeRef path d = some (.self rest.length)
    | .child x => ∃ e rest, path = e :: rest ∧ x ∈ e.kids ∧ parseNodeRef path d = some (.child rest.length x)
    | .sibling x => ∃ e p rest, path = e :: p :: rest ∧ (∀ args, p.kind ≠ .call args) ∧ x ∈ p.kids ∧
        parseNodeRef path d = some (.child rest.length x) := by
  have hdoc : ∀ e p tl, document path = e :: p :: tl → ∃ rest, path = e :: p :: rest ∧ ∀ args, p.kind ≠ .call args := by
    intro e p tl hd
    match path, hd with
    | [], hd => cases hd
    | [_], hd => simp [document] at hd
    | a :: b :: rest, hd =>
      rw [document] at hd
      injection hd with h1 h2
      subst h1
      cases hk : b.kind with
      | call args => rw [hk] at h2; cases h2
      | leaf => rw [hk] at h2; simp only [document] at h2; injection h2 with h2 _; subst h2; exact ⟨rest, rfl, by simp [hk]⟩
      | list => rw [hk] at h2; simp only [document] at h2; injection h2 with h2 _; subst h2; exact ⟨rest, rfl, by simp [hk]⟩
  cases d with
  | self =>
    cases path with
    | nil => simp [checkNodeRef] at h
    | cons e rest => exact ⟨e, rest, rfl, rfl⟩
  | parent =>
    simp only [checkNodeRef] at h
    split at h
    · rename_i e p tl hd
      obtain ⟨rest, rfl, hk⟩ := hdoc e p tl hd
      exact ⟨e, p, rest, rfl, hk, rfl⟩
    · cases h
  | child x =>
    cases path with
    | nil => simp [checkNodeRef] at h
    | cons e rest =>
      simp only [checkNodeRef, Bool.and_eq_true, decide_eq_true_eq] at h
      exact ⟨e, rest, rfl, h.2, by simp [parseNodeRef, h.2]⟩
  | sibling x =>
    simp only [checkNodeRef, Bool.and_eq_true] at h
    obtain ⟨-, hh⟩ := h
    split at hh
    · rename_i e p tl hd
      obtain ⟨rest, rfl, hk⟩ := hdoc e p tl hd
      have hx := of_decide_eq_true hh
      exact ⟨e, p, rest, rfl, hk, hx, by simp [parseNodeRef, hx]⟩
    · cases hh

/-- Among the children of an accepted node, an id designates one child only. -/
theorem c67_child_unique (e : Elem) (h : checkKids e = true) (i j : Nat) (hi : i < e.kids.length) (hj : j < e.kids.length)
    (hij : e.kids[i] = e.kids[j]) : i = j :=
  (List.Nodup.getElem_inj_iff (of_decide_eq_true h)).mp hij

/-- The theorems' hypotheses are met; the node itself is found before a child of the same id, which the parser accepts (`parseNode.cc:384` compares pointers). -/
theorem c67_example : checkNodeId exPath "Lib" = true ∧ parseNodeId exPath "Lib" = some (.self 2) ∧ checkNodeId exPath "Root" = false ∧
    checkNodeRef exPath .parent = true ∧ checkNodeRef exPath (.sibling "Inner") = true ∧
    checkKids { id := "A", kind := .list, kids := ["A"] } = true ∧
    parseNodeId [{ id := "A", kind := .list, kids := ["A"] }] "A" = some (.self 0) := by decide

/-! ## C68 -/

/-- `l'` is called in the library `l`. -/
def Calls (libs : Libs) (l' l : Name) : Prop := ∃ calls, libs l = some calls ∧ l' ∈ calls

/-- More nesting allowed does not change a result. -/
theorem expand_mono (libs : Libs) : ∀ k, (∀ l r, expand libs k l = some r → expand libs (k + 1) l = some r) ∧
    (∀ ls r, expandAll libs k ls = some r → expandAll libs (k + 1) ls = some r) := by
  have all : ∀ k, (∀ l r, expand libs k l = some r → expand libs (k + 1) l = some r) →
      ∀ ls r, expandAll libs k ls = some r → expandAll libs (k + 1) ls = some r := by
    intro k hk ls
    induction ls with
    | nil => intro r h; rw [expandAll] at h ⊢; exact h
    | cons l ls ih =>
      intro r h
      rw [expandAll] at h
      rw [expandAll]
      cases hl : expand libs k l with
      | none => rw [hl] at h; cases h
      | some v =>
        rw [hk l v hl]; rw [hl] at h
        cases v with
        | none => exact h
        | some n =>
          simp only at h ⊢
          cases hls : expandAll libs k ls with
          | none => rw [hls] at h; cases h
          | some w => rw [ih w hls]; rw [hls] at h; exact h
  intro k
  induction k with
  | zero =>
    have : ∀ l r, expand libs 0 l = some r → expand libs (0 + 1) l = some r := by intro l r h; rw [expand] at h; cases h
    exact ⟨this, all 0 this⟩
  | succ k ih =>
    have : ∀ l r, expand libs (k + 1) l = some r → expand libs (k + 1 + 1) l = some r := by
      intro l r h
      rw [expand] at h
      rw [expand]
      cases hl : libs l with
      | none => rw [hl] at h; exact h
      | some calls =>
        rw [hl] at h
        simp only at h ⊢
        cases hc : expandAll libs k calls with
        | none => rw [hc] at h; cases h
        | some v => rw [ih.2 calls v hc]; rw [hc] at h; exact h
    exact ⟨this, all _ this⟩

theorem expand_le (libs : Libs) {k k' : Nat} (h : k ≤ k') {l : Name} {r} (he : expand libs k l = some r) : expand libs k' l = some r := by
  induction h with
  | refl => exact he
  | step _ ih => exact (expand_mono libs _).1 l r ih

theorem expandAll_le (libs : Libs) {k k' : Nat} (h : k ≤ k') {ls : List Name} {r} (he : expandAll libs k ls = some r) : expandAll libs k' ls = some r := by
  induction h with
  | refl => exact he
  | step _ ih => exact (expand_mono libs _).2 ls r ih

/-- Expansion of a list of calls ends if that of each does. -/
theorem expandAll_ends (libs : Libs) (ls : List Name) (h : ∀ l ∈ ls, ∃ k r, expand libs k l = some r) : ∃ k r, expandAll libs k ls = some r := by
  induction ls with
  | nil => exact ⟨0, _, by rw [expandAll]⟩
  | cons l ls ih =>
    obtain ⟨k1, r1, h1⟩ := h l (by simp)
    obtain ⟨k2, r2, h2⟩ := ih (fun l hl => h l (List.mem_cons_of_mem _ hl))
    have a := expand_le libs (Nat.le_max_left k1 k2) h1
    have b := expandAll_le libs (Nat.le_max_right k1 k2) h2
    cases r1 with
    | none => exact ⟨max k1 k2, none, by rw [expandAll, a]⟩
    | some n =>
      cases r2 with
      | none => exact ⟨max k1 k2, none, by rw [expandAll, a, b]⟩
      | some m => exact ⟨max k1 k2, some (n + m), by rw [expandAll, a, b]⟩

/-- **C68, it ends.**  Loading a plan ends (the library calls are all expanded, or one is not found) if no library calls itself, directly or indirectly, without end. -/
theorem c68_ends (libs : Libs) (l : Name) (h : Acc (Calls libs) l) : ∃ k r, expand libs k l = some r := by
  induction h with
  | intro l _ ih =>
    cases hl : libs l with
    | none => exact ⟨1, none, by rw [expand, hl]⟩
    | some calls =>
      obtain ⟨k, r, hr⟩ := expandAll_ends libs calls (fun l' hl' => ih l' ⟨calls, hl, hl'⟩)
      cases r with
      | none => exact ⟨k + 1, none, by rw [expand, hl]; simp only [hr]⟩
      | some n => exact ⟨k + 1, some (n + 1), by rw [expand, hl]; simp only [hr]⟩

/-- A successful expansion of a list expands each. -/
theorem expandAll_mem (libs : Libs) (k : Nat) (ls : List Name) (n : Nat) (h : expandAll libs k ls = some (some n)) :
    ∀ l ∈ ls, ∃ m, expand libs k l = some (some m) := by
  induction ls generalizing n with
  | nil => intro l hl; cases hl
  | cons l ls ih =>
    rw [expandAll] at h
    cases hl : expand libs k l with
    | none => rw [hl] at h; cases h
    | some v =>
      cases v with
      | none => rw [hl] at h; cases h
      | some m =>
        rw [hl] at h
        simp only at h
        cases hls : expandAll libs k ls with
        | none => rw [hls] at h; cases h
        | some w =>
          cases w with
          | none => rw [hls] at h; cases h
          | some w =>
            intro l' hl'
            rcases List.mem_cons.mp hl' with rfl | hl'
            · exact ⟨m, hl⟩
            · exact ih w hls l' hl'

/-- **C68, success.**  If it ends with success, every library called, directly or indirectly, was found, and none calls itself without end. -/
theorem c68_loaded (libs : Libs) : ∀ (k : Nat) (l : Name) (n : Nat), expand libs k l = some (some n) →
    Acc (Calls libs) l ∧ ∀ l', Relation.ReflTransGen (fun a b => Calls libs b a) l l' → (libs l').isSome := by
  intro k
  induction k with
  | zero => intro l n h; rw [expand] at h; cases h
  | succ k ih =>
    intro l n h
    rw [expand] at h
    cases hl : libs l with
    | none => rw [hl] at h; cases h
    | some calls =>
      rw [hl] at h
      simp only at h
      cases hc : expandAll libs k calls with
      | none => rw [hc] at h; cases h
      | some v =>
        cases v with
        | none => rw [hc] at h; cases h
        | some m =>
          have hall := expandAll_mem libs k calls m hc
          have hsub : ∀ l', Calls libs l' l → ∃ m, expand libs k l' = some (some m) := by
            rintro l' ⟨calls', h1, h2⟩
            rw [hl] at h1; injection h1 with h1; subst h1
            exact hall l' h2
          refine ⟨⟨l, fun l' h' => let ⟨m, hm⟩ := hsub l' h'; (ih l' m hm).1⟩, fun l' h' => ?_⟩
          rcases Relation.ReflTransGen.cases_head h' with rfl | ⟨c, hc1, hc2⟩
          · simp [hl]
          · obtain ⟨m, hm⟩ := hsub c hc1
            exact (ih c m hm).2 l' hc2

/-- **C68, exactly.**  When all the libraries called are there, loading the plan ends if and only if no chain of calls is infinite: there is no check for a
cycle (`parseLibraryCall.cc:123-140`), so with one the construction never ends. -/
theorem c68_ends_iff (libs : Libs) (l : Name) (hall : ∀ l', Relation.ReflTransGen (fun a b => Calls libs b a) l l' → (libs l').isSome) :
    (∃ k r, expand libs k l = some r) ↔ Acc (Calls libs) l := by
  refine ⟨?_, c68_ends libs l⟩
  rintro ⟨k, r, h⟩
  cases r with
  | some n => exact (c68_loaded libs k l n h).1
  | none =>
    exfalso
    have : ∀ k, (∀ l, expand libs k l = some none → ¬ ∀ l', Relation.ReflTransGen (fun a b => Calls libs b a) l l' → (libs l').isSome) ∧
        (∀ ls, expandAll libs k ls = some none → ∃ l ∈ ls, ¬ ∀ l', Relation.ReflTransGen (fun a b => Calls libs b a) l l' → (libs l').isSome) := by
      have all : ∀ k, (∀ l, expand libs k l = some none → ¬ ∀ l', Relation.ReflTransGen (fun a b => Calls libs b a) l l' → (libs l').isSome) →
          ∀ ls, expandAll libs k ls = some none → ∃ l ∈ ls, ¬ ∀ l', Relation.ReflTransGen (fun a b => Calls libs b a) l l' → (libs l').isSome := by
        intro k hk ls
        induction ls with
        | nil => intro h; rw [expandAll] at h; cases h
        | cons l ls ih =>
          intro h
          rw [expandAll] at h
          cases hl : expand libs k l with
          | none => rw [hl] at h; cases h
          | some v =>
            cases v with
            | none => exact ⟨l, by simp, hk l hl⟩
            | some m =>
              rw [hl] at h
              simp only at h
              cases hls : expandAll libs k ls with
              | none => rw [hls] at h; cases h
              | some w =>
                cases w with
                | none => obtain ⟨l', h1, h2⟩ := ih hls; exact ⟨l', List.mem_cons_of_mem _ h1, h2⟩
                | some w => rw [hls] at h; cases h
      intro k
      induction k with
      | zero =>
        have : ∀ l, expand libs 0 l = some none → ¬ ∀ l', Relation.ReflTransGen (fun a b => Calls libs b a) l l' → (libs l').isSome := by
          intro l h; rw [expand] at h; cases h
        exact ⟨this, all 0 this⟩
      | succ k ih =>
        have : ∀ l, expand libs (k + 1) l = some none → ¬ ∀ l', Relation.ReflTransGen (fun a b => Calls libs b a) l l' → (libs l').isSome := by
          intro l h hfound
          rw [expand] at h
          cases hl : libs l with
          | none => have := hfound l .refl; rw [hl] at this; cases this
          | some calls =>
            rw [hl] at h
            simp only at h
            cases hc : expandAll libs k calls with
            | none => rw [hc] at h; cases h
            | some v =>
              cases v with
              | some m => rw [hc] at h; cases h
              | none =>
                obtain ⟨l', h1, h2⟩ := ih.2 calls hc
                exact h2 fun l'' hl'' => hfound l'' (.head ⟨calls, hl, h1⟩ hl'')
        exact ⟨this, all _ this⟩
    exact (this k).1 l h hall

/-- A library that can call itself again never finishes loading. -/
theorem c68_cycle (libs : Libs) (l c : Name) (hall : ∀ l', Relation.ReflTransGen (fun a b => Calls libs b a) l l' → (libs l').isSome)
    (hlc : Relation.ReflTransGen (fun a b => Calls libs b a) l c) (hcyc : Relation.TransGen (fun a b => Calls libs b a) c c) :
    ∀ k, expand libs k l = none := by
  intro k
  cases h : expand libs k l with
  | none => rfl
  | some r =>
    exfalso
    have hacc := (c68_ends_iff libs l hall).mp ⟨k, r, h⟩
    have hc : Acc (Calls libs) c := by
      clear hcyc hall h
      induction hlc with
      | refl => exact hacc
      | tail _ hbc ih => exact ih.inv hbc
    have : ∀ a, Acc (Calls libs) a → ¬ Relation.TransGen (fun a b => Calls libs b a) a a := by
      intro a ha
      have hta : Acc (Relation.TransGen (Calls libs)) a := ha.transGen
      intro hcy
      have hcy' : Relation.TransGen (Calls libs) a a := by
        have := Relation.transGen_swap.mp (show Relation.TransGen (Function.swap (Calls libs)) a a from hcy)
        exact this
      clear hcy
      induction hta with
      | intro a _ ih => exact ih a hcy' (ha) hcy'
    exact this c hc hcyc

/-- The hypotheses are met, both ways: `A` calls `B` twice; and `C` calls itself. -/
theorem c68_example : expand (fun l => if l = "A" then some ["B", "B"] else if l = "B" then some [] else none) 2 "A" = some (some 3) ∧
    ∀ k, expand (fun l => if l = "C" then some ["C"] else none) k "C" = none := by
  refine ⟨by simp [expand, expandAll], c68_cycle _ "C" "C" ?_ .refl (.single ⟨["C"], rfl, by simp⟩)⟩
  intro l' h
  have : l' = "C" := by
    induction h with
    | refl => rfl
    | tail _ hbc ih =>
      subst ih
      obtain ⟨calls, h1, h2⟩ := hbc
      simp only [if_true, Option.some.injEq] at h1
      subst h1; simpa using h2
  subst this; rfl

end Verif.Scope
