import Verif.Scope.Spec
namespace Verif.Scope

/-- The cell of an expression object. -/
def Obj.cell : Obj → Cell
  | .var d x _ => .var d x
  | .expr d x _ => .expr d x
  | .alias o => o.cell

/-- What an expression object is to the plan. -/
def Obj.view (o : Obj) : Binding := ⟨o.cell, o.ty, o.assignable⟩

/-- Names found by a child. -/
def seen (fs : List Frame) (x : Name) : Option Obj := search ((childMaps fs).getD []) x

/-- A name in a node's own map. -/
def Frame.look (f : Frame) (x : Name) : Option Obj := (f.map.getD []).lookup x

theorem findVariable_cons (f : Frame) (anc : List Frame) (x : Name) :
    findVariable (f :: anc) x = (f.look x).or (seen anc x) := by
  unfold findVariable Frame.look seen
  cases hf : f.map with
  | none => cases h : childMaps anc <;> simp [search, hf, h]
  | some m => simp only [search, Option.getD_some, hf]; cases m.lookup x <;> simp

theorem walk_list (p : Frame) (r : List Frame) (h : p.kind = .list) : walk (p :: r) = childMaps (p :: r) := by
  rw [walk, childMaps, h]

theorem seen_list_map {f : Frame} {anc : List Frame} (h : f.kind = .list) (hm : f.map.isSome) (x : Name) :
    seen (f :: anc) x = findVariable (f :: anc) x := by
  obtain ⟨m, hm⟩ := Option.isSome_iff_exists.mp hm
  unfold seen
  rw [childMaps, h, findVariable, hm]
  simp

theorem seen_list {f : Frame} {anc : List Frame} (h : f.kind = .list)
    (hp : ∀ p r, anc = p :: r → p.kind = .list) (x : Name) : seen (f :: anc) x = findVariable (f :: anc) x := by
  cases hm : f.map with
  | some m => exact seen_list_map h (by simp [hm]) x
  | none =>
    rw [findVariable_cons]
    unfold seen
    rw [childMaps, h, hm]
    cases anc with
    | nil => simp [walk, childMaps, search, Frame.look, hm]
    | cons p r => simp [walk_list p r (hp p r rfl), Frame.look, hm]

theorem seen_call {f : Frame} {anc : List Frame} {args} (h : f.kind = .call args) (x : Name) : seen (f :: anc) x = f.alias.lookup x := by
  unfold seen
  rw [childMaps, h]
  simp only [Option.getD_some, search]
  cases f.alias.lookup x <;> rfl

/-! ### Linking interface variables -/

/-- What is kept when a variable is added to a map. -/
structure Same (f f' : Frame) : Prop where
  kind : f'.kind = f.kind
  alias : f'.alias = f.alias
  some : f'.map.isSome = f.map.isSome

theorem Same.rfl' (f : Frame) : Same f f := ⟨rfl, rfl, rfl⟩
theorem Same.trans {f g h : Frame} (a : Same f g) (b : Same g h) : Same f h :=
  ⟨b.kind.trans a.kind, b.alias.trans a.alias, b.some.trans a.some⟩

theorem addLocal_spec {x : Name} {o : Obj} {f : Frame} (hm : f.map.isSome) (hx : f.look x = none) :
    ∃ f', addLocal x o f = some f' ∧ Same f f' ∧ ∀ y, f'.look y = if y = x then some o else f.look y := by
  obtain ⟨m, hm⟩ := Option.isSome_iff_exists.mp hm
  simp only [Frame.look, hm, Option.getD_some] at hx
  refine ⟨{ f with map := some ((x, o) :: m) }, by simp [addLocal, hm, hx], ⟨rfl, rfl, by simp [hm]⟩, fun y => ?_⟩
  simp only [Frame.look, hm, Option.getD_some, List.lookup_cons]
  by_cases h : y = x
  · subst h; simp
  · have : (y == x) = false := by simp [h]
    simp [h, this]

/-- The condition for an `In` variable. -/
def okIn (outer : Env) (d : Decl) : Prop := match outer d.name with
  | some b => b.ty = d.ty
  | none => d.init = true
/-- The condition for an `InOut` variable. -/
def okInOut (outer : Env) (d : Decl) : Prop := match outer d.name with
  | some b => b.ty = d.ty ∧ b.writable = true
  | none => d.init = true ∧ ∃ t, d.ty = .scalar t
/-- The meaning of an `In` variable. -/
def asIn (outer : Env) (depth : Nat) (d : Decl) : Option Binding := match outer d.name with
  | some b => some { b with writable := false }
  | none => some ⟨.expr depth d.name, d.ty, false⟩
/-- The meaning of an `InOut` variable. -/
def asInOut (outer : Env) (depth : Nat) (d : Decl) : Option Binding := match outer d.name with
  | some b => some b
  | none => some ⟨.var depth d.name, d.ty, true⟩

/-- The meaning of names outside, from the finalized ancestors. -/
def outerView (anc : List Frame) : Env := fun x => (seen anc x).map Obj.view

theorem linkIn_spec {anc : List Frame} {d : Decl} {f : Frame} (hm : f.map.isSome) (hx : f.look d.name = none) :
    (okIn (outerView anc) d → ∃ f', linkIn anc d f = some f' ∧ Same f f' ∧ (∀ y, y ≠ d.name → f'.look y = f.look y) ∧
      (findVariable (f' :: anc) d.name).map Obj.view = asIn (outerView anc) anc.length d) ∧
    (¬ okIn (outerView anc) d → linkIn anc d f = none) := by
  unfold okIn linkIn asIn outerView
  simp only [findVariable_cons, hx, Option.none_or]
  cases hs : seen anc d.name with
  | none =>
    simp only [Option.map_none]
    obtain ⟨f', h1, h2, h3⟩ := addLocal_spec (o := .expr anc.length d.name d.ty) hm hx
    refine ⟨fun hi => ⟨f', by simp [hi, h1], h2, fun y hy => by simp [h3, hy], ?_⟩, fun hi => by simp [hi]⟩
    simp [h3, Obj.view, Obj.cell, Obj.ty, Obj.assignable]
  | some o =>
    simp only [Option.map_some]
    refine ⟨fun ht => ?_, fun ht => by simp [Obj.view] at ht; simp [ht]⟩
    have ht' : o.ty = d.ty := ht
    simp only [ht', ne_eq, not_true_eq_false, if_false]
    by_cases ha : o.assignable
    · obtain ⟨f', h1, h2, h3⟩ := addLocal_spec (o := .alias o) hm hx
      refine ⟨f', by simp [ha, h1], h2, fun y hy => by simp [h3, hy], ?_⟩
      simp [h3, Obj.view, Obj.cell, Obj.ty, Obj.assignable]
    · refine ⟨f, by simp [ha], Same.rfl' f, fun _ _ => rfl, ?_⟩
      simp [hx, Obj.view, ha]

theorem linkInOut_spec {anc : List Frame} {d : Decl} {f : Frame} (hm : f.map.isSome) (hx : f.look d.name = none) :
    (okInOut (outerView anc) d → ∃ f', linkInOut anc d f = some f' ∧ Same f f' ∧ (∀ y, y ≠ d.name → f'.look y = f.look y) ∧
      (findVariable (f' :: anc) d.name).map Obj.view = asInOut (outerView anc) anc.length d) ∧
    (¬ okInOut (outerView anc) d → linkInOut anc d f = none) := by
  unfold okInOut linkInOut asInOut outerView
  simp only [findVariable_cons, hx, Option.none_or]
  cases hs : seen anc d.name with
  | none =>
    simp only [Option.map_none]
    obtain ⟨f', h1, h2, h3⟩ := addLocal_spec (o := .var anc.length d.name d.ty) hm hx
    refine ⟨?_, ?_⟩
    · rintro ⟨hi, t, ht⟩
      refine ⟨f', by simp only [hi, if_true]; rw [ht] at h1 ⊢; exact h1, h2, fun y hy => by simp [h3, hy], ?_⟩
      simp [h3, Obj.view, Obj.cell, Obj.ty, Obj.assignable]
    · intro hn
      by_cases hi : d.init
      · simp only [hi, if_true]
        cases ht : d.ty with
        | scalar t => exact absurd ⟨hi, t, ht⟩ hn
        | array t => rfl
      · simp [hi]
  | some o =>
    simp only [Option.map_some]
    refine ⟨?_, ?_⟩
    · rintro ⟨ht, ha⟩
      have ht' : o.ty = d.ty := ht
      have ha' : o.assignable = true := ha
      exact ⟨f, by simp [ht', ha'], Same.rfl' f, fun _ _ => rfl, by simp [hx]⟩
    · intro hn
      by_cases ht : o.ty = d.ty
      · by_cases ha : o.assignable
        · exact absurd ⟨ht, ha⟩ hn
        · simp [ht, ha]
      · simp [ht]

theorem linkAll_spec {anc : List Frame} {g : List Frame → Decl → Frame → Option Frame} {ok : Env → Decl → Prop} {as : Env → Nat → Decl → Option Binding}
    (hg : ∀ {d : Decl} {f : Frame}, f.map.isSome → f.look d.name = none →
      (ok (outerView anc) d → ∃ f', g anc d f = some f' ∧ Same f f' ∧ (∀ y, y ≠ d.name → f'.look y = f.look y) ∧
        (findVariable (f' :: anc) d.name).map Obj.view = as (outerView anc) anc.length d) ∧
      (¬ ok (outerView anc) d → g anc d f = none)) :
    ∀ (ds : List Decl) (f : Frame), (ds ≠ [] → f.map.isSome) → (ds.map Decl.name).Nodup → (∀ d ∈ ds, f.look d.name = none) →
      ((∀ d ∈ ds, ok (outerView anc) d) → ∃ f', linkAll anc ds g f = some f' ∧ Same f f' ∧
        (∀ y, y ∉ ds.map Decl.name → f'.look y = f.look y) ∧
        ∀ d ∈ ds, (findVariable (f' :: anc) d.name).map Obj.view = as (outerView anc) anc.length d) ∧
      (¬ (∀ d ∈ ds, ok (outerView anc) d) → linkAll anc ds g f = none) := by
  intro ds
  induction ds with
  | nil => intro f _ _ _; exact ⟨fun _ => ⟨f, rfl, Same.rfl' f, fun _ _ => rfl, by simp⟩, fun h => absurd (by simp) h⟩
  | cons d ds ih =>
    intro f hm hnd hlook
    have hm := hm (by simp)
    rw [List.map_cons, List.nodup_cons] at hnd
    obtain ⟨h1, h2⟩ := hg hm (hlook d (by simp))
    by_cases hd : ok (outerView anc) d
    · obtain ⟨f1, e1, s1, l1, v1⟩ := h1 hd
      obtain ⟨i1, i2⟩ := ih f1 (fun _ => by rw [s1.some]; exact hm) hnd.2 (fun d' hd' => by
        rw [l1 d'.name (fun h => hnd.1 (h ▸ List.mem_map_of_mem hd'))]; exact hlook d' (List.mem_cons_of_mem _ hd'))
      refine ⟨fun hall => ?_, fun hn => ?_⟩
      · obtain ⟨f2, e2, s2, l2, v2⟩ := i1 (fun d' hd' => hall d' (List.mem_cons_of_mem _ hd'))
        refine ⟨f2, by simp [linkAll, e1, e2], s1.trans s2, fun y hy => ?_, fun d' hd' => ?_⟩
        · rw [List.map_cons, List.mem_cons, not_or] at hy
          rw [l2 y hy.2, l1 y hy.1]
        · rcases List.mem_cons.mp hd' with rfl | hd'
          · rw [← v1, findVariable_cons, findVariable_cons, l2 _ hnd.1]
          · exact v2 d' hd'
      · simp only [linkAll, e1]
        refine i2 (fun h => hn (fun d' hd' => ?_))
        rcases List.mem_cons.mp hd' with rfl | hd'
        · exact hd
        · exact h d' hd'
    · refine ⟨fun h => absurd (h d (by simp)) hd, fun _ => by simp [linkAll, h2 hd]⟩

/-! ### A node -/

theorem lookup_vars (depth : Nat) (ds : List Decl) (x : Name) :
    (ds.map fun d => (d.name, Obj.var depth d.name d.ty)).lookup x = (declared ds x).map fun d => .var depth x d.ty := by
  induction ds with
  | nil => rfl
  | cons d ds ih =>
    unfold declared at ih ⊢
    rw [List.map_cons, List.lookup_cons, List.find?_cons]
    by_cases h : d.name = x
    · subst h; simp
    · have : (x == d.name) = false := by simp [Ne.symm h]
      rw [this, ih]; simp [h]

theorem declared_mem {ds : List Decl} {x : Name} {d : Decl} (h : declared ds x = some d) : d ∈ ds ∧ d.name = x := by
  refine ⟨List.mem_of_find?_eq_some h, ?_⟩
  have := List.find?_some h
  simpa using this

theorem declared_none {ds : List Decl} {x : Name} : declared ds x = none ↔ x ∉ ds.map Decl.name := by
  unfold declared
  simp only [List.find?_eq_none, List.mem_map, not_exists, not_and, decide_eq_true_eq]

theorem initMap_none {e : Elem} {depth : Nat} (h : (e.initMap depth).isSome = false) : e.locals ++ e.ins ++ e.inouts = [] := by
  unfold Elem.initMap at h
  by_cases h0 : e.locals = [] ∧ e.mutexes = [] ∧ e.ins = [] ∧ e.inouts = []
  · obtain ⟨h1, -, h3, h4⟩ := h0; simp [h1, h3, h4]
  · rw [if_neg h0] at h
    generalize e.aliasSpace = n at h
    by_cases h1 : e.locals.length + n + (e.ins.length + e.inouts.length) = 0
    · simp only [Nat.add_eq_zero_iff, List.length_eq_zero_iff] at h1
      simp [h1.1.1, h1.2.1, h1.2.2]
    · rw [if_neg h1] at h; simp at h

theorem initMap_look (e : Elem) (depth : Nat) (x : Name) :
    ((e.initMap depth).getD []).lookup x = (declared e.locals x).map fun d => .var depth x d.ty := by
  cases h : e.initMap depth with
  | none =>
    have := initMap_none (e := e) (depth := depth) (by simp [h])
    simp only [List.append_eq_nil_iff] at this
    simp [this.1.1, declared]
  | some m =>
    have : m = e.locals.map fun d => (d.name, .var depth d.name d.ty) := by
      unfold Elem.initMap at h
      generalize e.aliasSpace = n at h
      by_cases h0 : e.locals = [] ∧ e.mutexes = [] ∧ e.ins = [] ∧ e.inouts = []
      · rw [if_pos h0] at h; simp at h
      · rw [if_neg h0] at h
        by_cases h1 : e.locals.length + n + (e.ins.length + e.inouts.length) = 0
        · rw [if_pos h1] at h; simp at h
        · rw [if_neg h1] at h; simpa using h.symm
    rw [Option.getD_some, this, lookup_vars]

theorem aliases_spec (chain : List Frame) (depth : Nat) (args : List (Name × Arg)) :
    ((∀ x y, (x, Arg.var y) ∈ args → (findVariable chain y).isSome) → ∃ m, aliases chain depth args = some m ∧
      ∀ x, (m.lookup x).map Obj.view = passed (fun y => (findVariable chain y).map Obj.view) depth args x) ∧
    (¬ (∀ x y, (x, Arg.var y) ∈ args → (findVariable chain y).isSome) → aliases chain depth args = none) := by
  induction args with
  | nil => exact ⟨fun _ => ⟨[], rfl, fun x => rfl⟩, fun h => absurd (by simp) h⟩
  | cons a rest ih =>
    obtain ⟨x0, a⟩ := a
    constructor
    · intro h
      obtain ⟨m, hm, hl⟩ := ih.1 (fun x y hxy => h x y (List.mem_cons_of_mem _ hxy))
      cases a with
      | var y =>
        obtain ⟨o, ho⟩ := Option.isSome_iff_exists.mp (h x0 y (by simp))
        refine ⟨(x0, o) :: m, by simp [aliases, ho, hm], fun x => ?_⟩
        have := hl x
        unfold passed at this ⊢
        rw [List.lookup_cons, List.lookup_cons]
        cases hx : (x == x0) with
        | true => simp [ho]
        | false => simpa using this
      | other t =>
        refine ⟨(x0, .expr depth x0 t) :: m, by simp [aliases, hm], fun x => ?_⟩
        have := hl x
        unfold passed at this ⊢
        rw [List.lookup_cons, List.lookup_cons]
        cases hx : (x == x0) with
        | true =>
          have : x = x0 := by simpa using hx
          simp [Obj.view, Obj.cell, Obj.ty, Obj.assignable, this]
        | false => simpa using this
    · intro h
      by_cases hr : ∀ x y, (x, Arg.var y) ∈ rest → (findVariable chain y).isSome
      · cases a with
        | var y =>
          have : findVariable chain y = none := by
            cases hy : findVariable chain y with
            | none => rfl
            | some o =>
              exfalso; apply h
              intro x y' hxy
              rcases List.mem_cons.mp hxy with heq | hxy
              · injection heq with _ h2; injection h2 with h2; subst h2; simp [hy]
              · exact hr x y' hxy
          simp [aliases, this]
        | other t =>
          exfalso; apply h
          intro x y' hxy
          rcases List.mem_cons.mp hxy with heq | hxy
          · injection heq with _ h2; cases h2
          · exact hr x y' hxy
      · have := ih.2 hr
        simp only [aliases, this]
        split <;> simp_all

/-- One node: accepted exactly when the language says so, and then names mean what the language says. -/
theorem frame_spec (anc : List Frame) (e : Elem) :
    (Accepts (outerView anc) anc.length e → ∃ f, e.frame anc = some f ∧ f.kind = e.kind ∧
      (e.locals ++ e.ins ++ e.inouts ≠ [] → f.map.isSome) ∧
      (∀ x, (findVariable (f :: anc) x).map Obj.view = inside (outerView anc) anc.length e x) ∧
      ∀ args, e.kind = .call args → ∀ x, (f.alias.lookup x).map Obj.view = passed (inside (outerView anc) anc.length e) anc.length args x) ∧
    (¬ Accepts (outerView anc) anc.length e → e.frame anc = none) := by
  by_cases hcn : e.checkNames = true
  rotate_left
  · refine ⟨fun h => absurd ?_ hcn, fun _ => by simp [Elem.frame, hcn]⟩
    unfold Elem.checkNames
    rw [Bool.and_eq_true]
    refine ⟨decide_eq_true h.nodup, ?_⟩
    split
    · rename_i args hk; exact decide_eq_true (h.args args hk).1
    · rfl
  have hcn' := hcn
  unfold Elem.checkNames at hcn'
  rw [Bool.and_eq_true, decide_eq_true_eq] at hcn'
  obtain ⟨hnd, hargs⟩ := hcn'
  have hnd0 := hnd
  rw [List.map_append, List.map_append, List.nodup_append, List.nodup_append, List.nodup_append] at hnd
  obtain ⟨⟨⟨hin, hio, hdis1⟩, hlo, hdis2⟩, -, -⟩ := hnd
  let f0 : Frame := { kind := e.kind, map := e.initMap anc.length }
  have hl0 : ∀ x, f0.look x = (declared e.locals x).map fun d => .var anc.length x d.ty := fun x => initMap_look e anc.length x
  have hs0 : e.locals ++ e.ins ++ e.inouts ≠ [] → f0.map.isSome := fun h => by
    cases hh : f0.map.isSome with
    | true => rfl
    | false => exact absurd (initMap_none hh) h
  obtain ⟨a1, a2⟩ := linkAll_spec (anc := anc) (g := linkIn) (ok := okIn) (as := asIn) (fun hm hx => linkIn_spec hm hx) e.ins f0
    (fun h => hs0 (by simp [h])) hin (fun d hd => by
      rw [hl0, declared_none.mpr (fun hc => hdis2 _ (List.mem_append_left _ (List.mem_map_of_mem hd)) _ hc rfl)]; rfl)
  by_cases hokin : ∀ d ∈ e.ins, okIn (outerView anc) d
  rotate_left
  · refine ⟨fun h => absurd h.ins hokin, fun _ => ?_⟩
    have := a2 hokin
    simp only [Elem.frame, hcn, if_true]
    rw [show linkAll anc e.ins linkIn _ = none from this]
  obtain ⟨f1, e1, s1, l1, v1⟩ := a1 hokin
  obtain ⟨b1, b2⟩ := linkAll_spec (anc := anc) (g := linkInOut) (ok := okInOut) (as := asInOut) (fun hm hx => linkInOut_spec hm hx) e.inouts f1
    (fun h => by rw [s1.some]; exact hs0 (by simp [h])) hio (fun d hd => by
      rw [l1 d.name (fun hc => hdis1 _ hc _ (List.mem_map_of_mem hd) rfl),
        hl0, declared_none.mpr (fun hc => hdis2 _ (List.mem_append_right _ (List.mem_map_of_mem hd)) _ hc rfl)]; rfl)
  by_cases hokio : ∀ d ∈ e.inouts, okInOut (outerView anc) d
  rotate_left
  · refine ⟨fun h => absurd h.inouts hokio, fun _ => ?_⟩
    have := b2 hokio
    simp only [Elem.frame, hcn, if_true]
    rw [show linkAll anc e.ins linkIn _ = some f1 from e1]
    simp only [this]
  obtain ⟨f2, e2, s2, l2, v2⟩ := b1 hokio
  have hview : ∀ (f3 : Frame), f3.map = f2.map → ∀ x, (findVariable (f3 :: anc) x).map Obj.view = inside (outerView anc) anc.length e x := by
    intro f3 hf3 x
    have : findVariable (f3 :: anc) x = findVariable (f2 :: anc) x := by
      rw [findVariable_cons, findVariable_cons]; simp only [Frame.look, hf3]
    rw [this]
    unfold inside
    cases hdl : declared e.locals x with
    | some d =>
      obtain ⟨hd, hdx⟩ := declared_mem hdl
      have hx : x ∈ e.locals.map Decl.name := hdx ▸ List.mem_map_of_mem hd
      rw [findVariable_cons, l2 x (fun hc => hdis2 _ (List.mem_append_right _ hc) _ hx rfl),
        l1 x (fun hc => hdis2 _ (List.mem_append_left _ hc) _ hx rfl), hl0, hdl]
      rfl
    | none =>
      cases hdi : declared e.ins x with
      | some d =>
        obtain ⟨hd, rfl⟩ := declared_mem hdi
        rw [findVariable_cons, l2 d.name (fun hc => hdis1 _ (List.mem_map_of_mem hd) _ hc rfl), ← findVariable_cons]
        exact v1 d hd
      | none =>
        cases hdo : declared e.inouts x with
        | some d =>
          obtain ⟨hd, rfl⟩ := declared_mem hdo
          exact v2 d hd
        | none =>
          rw [findVariable_cons, l2 x (declared_none.mp hdo), l1 x (declared_none.mp hdi), hl0, hdl]
          simp [outerView]
  have hframe : e.frame anc = match e.kind with
      | .call args => (aliases (f2 :: anc) anc.length args).map fun m => { f2 with alias := m }
      | _ => some f2 := by
    simp only [Elem.frame, hcn, if_true]
    rw [show linkAll anc e.ins linkIn _ = some f1 from e1]
    simp only [e2]
    cases e.kind <;> rfl
  have hk2 : f2.kind = e.kind := by rw [s2.kind, s1.kind]
  have hm2 : e.locals ++ e.ins ++ e.inouts ≠ [] → f2.map.isSome := fun h => by rw [s2.some, s1.some]; exact hs0 h
  have noncall : (∀ args, e.kind ≠ .call args) → e.frame anc = some f2 := by
    intro h; rw [hframe]; split
    · rename_i args hk; exact absurd hk (h args)
    · rfl
  by_cases hcall : ∃ args, e.kind = .call args
  · obtain ⟨args, hk⟩ := hcall
    rw [hk] at hframe hargs
    have hargs : (args.map Prod.fst).Nodup := of_decide_eq_true hargs
    obtain ⟨c1, c2⟩ := aliases_spec (f2 :: anc) anc.length args
    have hin2 : ∀ y, (findVariable (f2 :: anc) y).isSome = (inside (outerView anc) anc.length e y).isSome := fun y => by
      rw [← hview f2 rfl y]; simp
    constructor
    · intro hacc
      obtain ⟨m, hm, hl⟩ := c1 (fun x y hxy => by rw [hin2]; exact (hacc.args args hk).2 x y hxy)
      simp only [hm, Option.map_some] at hframe
      refine ⟨_, hframe, hk2, hm2, hview _ rfl, ?_⟩
      intro args' hk' x
      rw [hk] at hk'; injection hk' with hk'; subst hk'
      have : (fun y => (findVariable (f2 :: anc) y).map Obj.view) = inside (outerView anc) anc.length e := funext (hview f2 rfl)
      rw [← this]; exact hl x
    · intro hacc
      have : aliases (f2 :: anc) anc.length args = none := c2 (fun h => hacc ⟨hnd0, hokin, hokio, fun args' hk' => by
        rw [hk] at hk'; injection hk' with hk'; subst hk'
        exact ⟨hargs, fun x y hxy => by rw [← hin2]; exact h x y hxy⟩⟩)
      simp only [this] at hframe
      exact hframe
  · have hcall : ∀ args, e.kind ≠ .call args := fun args h => hcall ⟨args, h⟩
    refine ⟨fun _ => ⟨f2, noncall hcall, hk2, hm2, hview f2 rfl, fun args h => absurd h (hcall args)⟩, fun hacc => ?_⟩
    exact absurd ⟨hnd0, hokin, hokio, fun args h => absurd h (hcall args)⟩ hacc

/-! ### A path -/

/-- The finalized ancestors show what the language says. -/
theorem frames_spec (path : List Elem) (hs : Shaped path) :
    (AcceptsPath path → ∃ fs, frames path = some fs ∧ fs.length = path.length ∧ outerView fs = outerEnv path ∧
      ∀ e rest, path = e :: rest → ∃ f r, fs = f :: r ∧ f.kind = e.kind) ∧
    (¬ AcceptsPath path → frames path = none) := by
  induction path with
  | nil => exact ⟨fun _ => ⟨[], rfl, rfl, rfl, fun _ _ h => by cases h⟩, fun h => absurd trivial h⟩
  | cons e rest ih =>
    obtain ⟨hleaf, hsr, hlist⟩ := hs
    obtain ⟨i1, i2⟩ := ih hsr
    by_cases hacc : AcceptsPath rest
    rotate_left
    · refine ⟨fun h => absurd h.1 hacc, fun _ => ?_⟩
      rw [frames, i2 hacc]
    obtain ⟨fs, hfs, hlen, hview, hhead⟩ := i1 hacc
    obtain ⟨j1, j2⟩ := frame_spec fs e
    rw [hview, hlen] at j1 j2
    constructor
    · rintro ⟨-, ha⟩
      obtain ⟨f, hf, hk, hm, hv, hal⟩ := j1 ha
      refine ⟨f :: fs, by simp [frames, hfs, hf], by simp [hlen], ?_, fun e' rest' h => by cases h; exact ⟨f, fs, rfl, hk⟩⟩
      funext x
      unfold outerView
      rw [outerEnv]
      cases hke : e.kind with
      | leaf => exact absurd hke hleaf
      | call args => rw [seen_call (hk.trans hke)]; exact hal args hke x
      | list =>
        simp only
        rw [← hv x]
        congr 1
        by_cases hp : ∃ p r args, rest = p :: r ∧ p.kind = .call args
        · exact seen_list_map (hk.trans hke) (hm (hlist hke hp)) x
        · refine seen_list (hk.trans hke) ?_ x
          intro p r hpr
          cases hrest : rest with
          | nil => subst hrest; simp at hlen; simp [hlen] at hpr
          | cons pe re =>
            obtain ⟨f', r', hf', hk'⟩ := hhead pe re hrest
            rw [hpr] at hf'; injection hf' with h1 _
            rw [h1, hk']
            cases hpk : pe.kind with
            | list => rfl
            | leaf => subst hrest; exact absurd hpk hsr.1
            | call args => exact absurd ⟨pe, re, args, hrest, hpk⟩ hp
    · intro h
      have : ¬ Accepts (outerEnv rest) rest.length e := fun ha => h ⟨hacc, ha⟩
      simp [frames, hfs, j2 this]

/-- Names at the end of a path. -/
theorem path_spec (path : List Elem) (hs : ShapedPath path) :
    (AcceptsPath path → ∃ fs, frames path = some fs ∧ ∀ x, (findVariable fs x).map Obj.view = envAt path x) ∧
    (¬ AcceptsPath path → frames path = none) := by
  cases path with
  | nil => exact ⟨fun _ => ⟨[], rfl, fun _ => rfl⟩, fun h => absurd trivial h⟩
  | cons e rest =>
    obtain ⟨i1, i2⟩ := frames_spec rest hs
    by_cases hacc : AcceptsPath rest
    rotate_left
    · exact ⟨fun h => absurd h.1 hacc, fun _ => by rw [frames, i2 hacc]⟩
    obtain ⟨fs, hfs, hlen, hview, -⟩ := i1 hacc
    obtain ⟨j1, j2⟩ := frame_spec fs e
    rw [hview, hlen] at j1 j2
    constructor
    · rintro ⟨-, ha⟩
      obtain ⟨f, hf, -, -, hv, -⟩ := j1 ha
      exact ⟨f :: fs, by simp [frames, hfs, hf], fun x => by rw [envAt]; exact hv x⟩
    · intro h
      have : ¬ Accepts (outerEnv rest) rest.length e := fun ha => h ⟨hacc, ha⟩
      simp [frames, hfs, j2 this]

end Verif.Scope
