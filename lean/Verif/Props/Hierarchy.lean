import Verif.Arbiter.Lemmas
/-
Property theorems about the expansion of resource requests through the resource hierarchy: C29 (which resources and which
amounts a command is charged for) and C30 (when the expansion terminates).
-/
namespace Verif.Props.Hierarchy
open Verif.Arbiter

/-- `b` is listed as a child of `a` in the hierarchy. -/
def ChildOf (h : Hierarchy) (a b : Name) : Prop := ∃ node, h.lookup a = some node ∧ ∃ c ∈ node.children, c.name = b

/-- `b` is `a` or a descendant of `a`. -/
inductive Reaches (h : Hierarchy) : Name → Name → Prop
  | refl (a) : Reaches h a a
  | step {a b c} : ChildOf h a b → Reaches h b c → Reaches h a c

/-- `b` is a proper descendant of `a`. -/
def Below (h : Hierarchy) (a b : Name) : Prop := ∃ c, ChildOf h a c ∧ Reaches h c b

theorem Reaches.trans {h a b c} (h1 : Reaches h a b) (h2 : Reaches h b c) : Reaches h a c := by
  induction h1 with
  | refl => exact h2
  | step hc _ ih => exact .step hc (ih h2)

/-! ## The fold over the children -/

theorem fold_names (g : Res → Option (List Res)) (f : Res → Res) (hf : ∀ c, (f c).name = c.name) (l : List Res) :
    ∀ acc r, l.foldlM (fun acc c => (g c).bind (fun sub => some (acc ++ f c :: sub))) acc = some r →
    ∀ m, m ∈ r.map (·.name) ↔ m ∈ acc.map (·.name) ∨ ∃ c ∈ l, m = c.name ∨ ∃ sub, g c = some sub ∧ m ∈ sub.map (·.name) := by
  induction l with
  | nil => intro acc r he m; cases he; simp
  | cons c l ih =>
    intro acc r he m
    simp only [List.foldlM_cons, Option.bind_eq_bind, Option.bind_eq_some_iff, Option.some.injEq] at he
    obtain ⟨a, ⟨sub, hs, rfl⟩, he⟩ := he
    rw [ih _ _ he m]
    simp only [List.map_append, List.mem_append, List.map_cons, List.mem_cons, hf]
    constructor
    · rintro ((h | h | h) | ⟨d, hd, h⟩)
      · exact .inl h
      · exact .inr ⟨c, .inl rfl, .inl h⟩
      · exact .inr ⟨c, .inl rfl, .inr ⟨sub, hs, h⟩⟩
      · exact .inr ⟨d, .inr hd, h⟩
    · rintro (h | ⟨d, rfl | hd, h⟩)
      · exact .inl (.inl h)
      · rcases h with h | ⟨sub', hs', h⟩
        · exact .inl (.inr (.inl h))
        · rw [hs] at hs'; cases hs'; exact .inl (.inr (.inr h))
      · exact .inr ⟨d, hd, h⟩

theorem fold_some (g : Res → Option (List Res)) (f : Res → Res) (l : List Res) : ∀ acc,
    ((∃ r, l.foldlM (fun acc c => (g c).bind (fun sub => some (acc ++ f c :: sub))) acc = some r) ↔ ∀ c ∈ l, ∃ sub, g c = some sub) := by
  induction l with
  | nil => intro acc; simp
  | cons c l ih =>
    intro acc
    simp only [List.foldlM_cons, Option.bind_eq_bind]
    cases hg : g c with
    | none => simp [hg]
    | some sub =>
      simp only [Option.bind_some]
      rw [ih]
      simp [hg]

theorem child_unfold (h : Hierarchy) (fuel : Nat) (name : Name) (rel : Bool) :
    childResources h (fuel + 1) name rel = match h.lookup name with
      | none => some []
      | some node => node.children.foldlM (fun acc c => (childResources h fuel c.name rel).bind (fun sub =>
          some (acc ++ { name := c.name, weight := c.weight, release := rel } :: sub))) [] := by
  rw [childResources]; rfl

theorem child_names (h : Hierarchy) : ∀ fuel name rel rs, childResources h fuel name rel = some rs →
    ∀ m, m ∈ rs.map (·.name) ↔ Below h name m := by
  intro fuel
  induction fuel with
  | zero => intro name rel rs he; cases he
  | succ fuel ih =>
    intro name rel rs he m
    rw [child_unfold] at he
    cases hl : h.lookup name with
    | none =>
      rw [hl] at he; cases he
      constructor
      · intro hm; simp at hm
      · rintro ⟨c, ⟨node, hn, _⟩, _⟩; rw [hl] at hn; cases hn
    | some node =>
      rw [hl] at he
      rw [fold_names (fun c => childResources h fuel c.name rel) (fun c => { name := c.name, weight := c.weight, release := rel })
        (fun _ => rfl) node.children [] rs he m]
      constructor
      · rintro (hm | ⟨c, hc, hm⟩)
        · simp at hm
        · refine ⟨c.name, ⟨node, hl, c, hc, rfl⟩, ?_⟩
          rcases hm with rfl | ⟨sub, hs, hm⟩
          · exact .refl _
          · obtain ⟨d, hd, hr⟩ := (ih _ _ _ hs m).mp hm
            exact .step hd hr
      · rintro ⟨d, ⟨node', hn, c, hc, rfl⟩, hr⟩
        rw [hl] at hn; cases hn
        right
        refine ⟨c, hc, ?_⟩
        cases hr with
        | refl => exact .inl rfl
        | step hcd hr =>
          right
          obtain ⟨sub, hs⟩ := (fold_some (fun c => childResources h fuel c.name rel)
            (fun c => { name := c.name, weight := c.weight, release := rel }) node.children []).mp ⟨_, he⟩ c hc
          exact ⟨sub, hs, (ih _ _ _ hs m).mpr ⟨_, hcd, hr⟩⟩

/-! ## C30 -/

/-- C30. If every child has a smaller rank than its parent (no cycles), the expansion of a resource ends within a
recursion depth of its rank plus one. -/
theorem C30_acyclic_terminates (h : Hierarchy) (rank : Name → Nat) (hr : ∀ a b, ChildOf h a b → rank b < rank a)
    (name : Name) (rel : Bool) (fuel : Nat) (hf : rank name < fuel) : ∃ rs, childResources h fuel name rel = some rs := by
  induction fuel generalizing name with
  | zero => omega
  | succ fuel ih =>
    rw [child_unfold]
    cases hl : h.lookup name with
    | none => exact ⟨_, rfl⟩
    | some node =>
      refine (fold_some (fun c => childResources h fuel c.name rel)
            (fun c => { name := c.name, weight := c.weight, release := rel }) node.children []).mpr ?_
      intro c hc
      apply ih
      have := hr name c.name ⟨node, hl, c, hc, rfl⟩
      omega

/-- C30. If a resource is a descendant of itself, no recursion depth suffices to expand it. -/
theorem C30_cyclic_diverges (h : Hierarchy) (name : Name) (hcyc : Below h name name) (rel : Bool) (fuel : Nat) :
    childResources h fuel name rel = none := by
  suffices H : ∀ fuel a, (∃ b, Reaches h a b ∧ Below h b b) → childResources h fuel a rel = none from
    H fuel name ⟨name, .refl _, hcyc⟩
  intro fuel
  induction fuel with
  | zero => intro a _; rfl
  | succ fuel ih =>
    rintro a ⟨b, hab, hbb⟩
    obtain ⟨c, ⟨node, hn, ch, hch, hcn⟩, hc⟩ : ∃ c, ChildOf h a c ∧ ∃ b, Reaches h c b ∧ Below h b b := by
      cases hab with
      | refl =>
        obtain ⟨c, hc, hcb⟩ := hbb
        exact ⟨c, hc, a, hcb, ⟨c, hc, hcb⟩⟩
      | step hc hr => exact ⟨_, hc, b, hr, hbb⟩
    cases hres : childResources h (fuel + 1) a rel with
    | none => rfl
    | some rs =>
      rw [child_unfold, hn] at hres
      obtain ⟨sub, hs⟩ := (fold_some (fun c => childResources h fuel c.name rel)
            (fun c => { name := c.name, weight := c.weight, release := rel }) node.children []).mp ⟨_, hres⟩ ch hch
      rw [hcn, ih c hc] at hs
      cases hs

/-- A two-level hierarchy. -/
def arm : Hierarchy := [("arm", ⟨[⟨"power", 1, true⟩, ⟨"heat", 2, true⟩], 10⟩), ("power", ⟨[], 10⟩), ("heat", ⟨[], 10⟩)]

theorem arm_child {a b} (hc : ChildOf arm a b) : a = "arm" ∧ (b = "power" ∨ b = "heat") := by
  obtain ⟨node, hn, c, hc, rfl⟩ := hc
  simp only [arm, List.lookup] at hn
  split at hn
  · rename_i heq
    cases hn
    simp at heq
    refine ⟨heq, ?_⟩
    simp only [List.mem_cons, List.not_mem_nil, or_false] at hc
    rcases hc with rfl | rfl
    · exact .inl rfl
    · exact .inr rfl
  · split at hn
    · cases hn; simp at hc
    · split at hn
      · cases hn; simp at hc
      · cases hn

example : ∀ a b, ChildOf arm a b → (fun n => if n = "arm" then 1 else 0) b < (fun n => if n = "arm" then 1 else 0) a := by
  intro a b hc
  obtain ⟨rfl, rfl | rfl⟩ := arm_child hc <;> simp

example : Below [("a", ⟨[⟨"b", 1, true⟩], 1⟩), ("b", ⟨[⟨"a", 1, true⟩], 1⟩)] "a" "a" :=
  ⟨"b", ⟨_, rfl, _, List.mem_singleton.mpr rfl, rfl⟩, .step ⟨_, rfl, _, List.mem_singleton.mpr rfl, rfl⟩ (.refl _)⟩

/-! ## C29 -/

/-- The entry of a set for a name. -/
def entryOf (s : List Res) (n : Name) : Option Res := s.find? (fun r => r.name == n)

theorem entry_none {s n} : entryOf s n = none ↔ n ∉ s.map (·.name) := by
  simp [entryOf, List.find?_eq_none]
  
theorem insert_entry (s : List Res) (r : Res) (n : Name) :
    entryOf (setInsert s r) n = (entryOf s n).or (if r.name = n then some r else none) := by
  unfold setInsert
  split
  · rename_i ha
    by_cases hn : r.name = n
    · cases he : entryOf s n with
      | some x => rfl
      | none =>
        rw [entry_none] at he
        simp at ha he
        obtain ⟨x, hx, hxn⟩ := ha
        exact absurd (hxn.trans hn) (he x hx)
    · simp [hn]
  · unfold entryOf
    rw [List.find?_append]
    by_cases hn : r.name = n <;> simp [hn]

theorem fold_entry (reqName : Name) (l : List Res) : ∀ (s : List Res) (n : Name),
    entryOf (l.foldl (fun s fres =>
      if s.any (fun x => x.name == fres.name) = false then setInsert s fres
      else if fres.name = reqName then setInsert s fres
      else s) s) n = (entryOf s n).or (entryOf l n) := by
  induction l with
  | nil => intro s n; simp [entryOf]
  | cons r l ih =>
    intro s n
    have hstep : (if s.any (fun x => x.name == r.name) = false then setInsert s r
        else if r.name = reqName then setInsert s r else s) = setInsert s r := by
      by_cases ha : s.any (fun x => x.name == r.name) = false
      · rw [if_pos ha]
      · rw [if_neg ha]
        have : setInsert s r = s := by
          unfold setInsert; rw [if_pos]; simpa using ha
        rw [this]; simp
    simp only [List.foldl_cons, hstep]
    rw [ih, insert_entry]
    have : entryOf (r :: l) n = (if r.name = n then some r else none).or (entryOf l n) := by
      unfold entryOf
      by_cases hn : r.name = n
      · simp [hn]
      · simp [hn]
    rw [this]
    cases entryOf s n <;> simp

/-- The order in which one request contributes: itself, then its descendants. -/
theorem addRequest_entry {fuel h req s s'} (he : addRequest fuel h req s = some s') (n : Name) :
    ∃ kids, childResources h fuel req.name req.release = some kids ∧
      entryOf s' n = (entryOf s n).or (entryOf ({ name := req.name, weight := req.upperBound, release := req.release } :: kids) n) := by
  simp only [addRequest, Option.bind_eq_bind, Option.bind_eq_some_iff, Option.pure_def, Option.some.injEq] at he
  obtain ⟨kids, hk, rfl⟩ := he
  exact ⟨kids, hk, fold_entry req.name _ s n⟩

theorem fold_reqs {fuel h} (reqs : List Request) : ∀ s rs, reqs.foldlM (fun s r => addRequest fuel h r s) s = some rs →
    ∀ m, m ∈ rs.map (·.name) ↔ m ∈ s.map (·.name) ∨ ∃ r ∈ reqs, Reaches h r.name m := by
  induction reqs with
  | nil => intro s rs he m; cases he; simp
  | cons r reqs ih =>
    intro s rs he m
    simp only [List.foldlM_cons, Option.bind_eq_bind, Option.bind_eq_some_iff] at he
    obtain ⟨s', h1, he⟩ := he
    rw [ih s' rs he m]
    obtain ⟨kids, hk, hent⟩ := addRequest_entry h1 m
    have hkids := child_names h fuel r.name r.release kids hk m
    have : m ∈ s'.map (·.name) ↔ m ∈ s.map (·.name) ∨ Reaches h r.name m := by
      have e1 : m ∈ s'.map (·.name) ↔ entryOf s' m ≠ none := by rw [ne_eq, entry_none]; simp
      have e2 : m ∈ s.map (·.name) ↔ entryOf s m ≠ none := by rw [ne_eq, entry_none]; simp
      have e3 : entryOf ({ name := r.name, weight := r.upperBound, release := r.release } :: kids) m ≠ none ↔ (m = r.name ∨ Below h r.name m) := by
        rw [ne_eq, entry_none, ← hkids, Classical.not_not, List.map_cons, List.mem_cons]
      have e4 : (m = r.name ∨ Below h r.name m) ↔ Reaches h r.name m := by
        constructor
        · rintro (rfl | ⟨c, hc, hr⟩)
          · exact .refl _
          · exact .step hc hr
        · intro hr
          cases hr with
          | refl => exact .inl rfl
          | step hc hr => exact .inr ⟨_, hc, hr⟩
      rw [e1, hent, e2, ← e4, ← e3]
      cases entryOf s m <;> simp
    rw [this]
    simp only [List.mem_cons, exists_eq_or_imp, or_assoc]

/-- C29. A command is charged for exactly the resources it requests and all their descendants, each once. -/
theorem C29_charged_resources (fuel : Nat) (h : Hierarchy) (reqs : List Request) (rs : List Res)
    (he : allResources fuel h reqs = some rs) :
    (rs.map (·.name)).Nodup ∧ ∀ m, m ∈ rs.map (·.name) ↔ ∃ r ∈ reqs, Reaches h r.name m := by
  refine ⟨allResources_names he, ?_⟩
  intro m
  rw [fold_reqs reqs [] rs he m]; simp

theorem fold_keeps {fuel h} (reqs : List Request) : ∀ s rs, reqs.foldlM (fun s r => addRequest fuel h r s) s = some rs →
    ∀ n x, entryOf s n = some x → entryOf rs n = some x := by
  induction reqs with
  | nil => intro s rs he n x hx; cases he; exact hx
  | cons r reqs ih =>
    intro s rs he n x hx
    simp only [List.foldlM_cons, Option.bind_eq_bind, Option.bind_eq_some_iff] at he
    obtain ⟨s', h1, he⟩ := he
    refine ih s' rs he n x ?_
    obtain ⟨kids, _, hent⟩ := addRequest_entry h1 n
    rw [hent, hx]; rfl

/-- C29. An explicit request is charged at the requested amount, with the requested release flag, if no earlier request of the
same command is for the same resource or for an ancestor of it. Full statement (comment at
`ResourceArbiterInterface.cc:311-319`): always; that is false, see `C29_explicit_amount_ignored`. -/
theorem C29_explicit_amount_partial (fuel : Nat) (h : Hierarchy) (pre post : List Request) (req : Request) (rs : List Res)
    (he : allResources fuel h (pre ++ req :: post) = some rs) (hfirst : ∀ r ∈ pre, ¬ Reaches h r.name req.name) :
    ⟨req.name, req.upperBound, req.release⟩ ∈ rs := by
  simp only [allResources, List.foldlM_append, List.foldlM_cons, Option.bind_eq_bind, Option.bind_eq_some_iff] at he
  obtain ⟨s1, h1, s2, h2, h3⟩ := he
  have hno : entryOf s1 req.name = none := by
    rw [entry_none, fold_reqs pre [] s1 h1]
    rintro (hm | ⟨r, hr, hm⟩)
    · simp at hm
    · exact hfirst r hr hm
  obtain ⟨kids, _, hent⟩ := addRequest_entry h2 req.name
  rw [hno] at hent
  have : entryOf s2 req.name = some ⟨req.name, req.upperBound, req.release⟩ := by
    rw [hent]; simp [entryOf]
  have := fold_keeps post s2 rs h3 _ _ this
  exact List.mem_of_find?_eq_some this

/-- C29 is false in general: a command asks for "arm" (whose child "power" has weight 1) and explicitly for 5 units of "power",
and is charged 1 unit of "power". Asking for the same resource twice counts the first amount only. -/
theorem C29_explicit_amount_ignored :
    (allResources 3 arm [⟨"arm", 1, 10, true⟩, ⟨"power", 5, 10, true⟩] =
      some [⟨"arm", 1, true⟩, ⟨"power", 1, true⟩, ⟨"heat", 2, true⟩]) ∧
    (allResources 3 arm [⟨"power", 1, 10, true⟩, ⟨"power", 5, 10, true⟩] = some [⟨"power", 1, true⟩]) := by
  constructor <;> rfl

example : ∃ rs, allResources 3 arm ([⟨"heat", 1, 10, true⟩] ++ ⟨"power", 5, 10, true⟩ :: [⟨"arm", 1, 10, true⟩]) = some rs ∧
    (⟨"power", 5, true⟩ : Res) ∈ rs := ⟨_, rfl, by decide⟩

end Verif.Props.Hierarchy
