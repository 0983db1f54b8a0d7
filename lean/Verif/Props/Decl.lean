import Verif.Decl.Spec
import Verif.Props.Text

/-!
# C103-C106: declarations and the calls checked against them
-/
set_option autoImplicit false

namespace Verif.Decl
open Verif.Text (VT parseType)
open Verif.Decl.Spec

/-! ### Types -/

/-- `areTypesCompatible` is exactly `Fits`. -/
theorem compatible_iff (d s : VT) : compatible d s = true ↔ Fits d s := by
  unfold Fits
  cases d <;> cases s <;> simp [compatible, isArrayT]

theorem numOk_iff (o : Option VT) : numOk o = true ↔ ∃ t, o = some t ∧ Numeric t := by
  unfold Numeric
  cases o with
  | none => simp [numOk]
  | some t => cases t <;> simp [numOk, isNumericT]

theorem all_isSome_iff (f : Ex → Option VT) (es : List Ex) :
    es.all (fun e => (f e).isSome) = true ↔ ∃ ts, Typed f es ts := by
  induction es with
  | nil => simp only [List.all_nil, true_iff]; exact ⟨[], rfl⟩
  | cons e es ih =>
    simp only [List.all_cons, Bool.and_eq_true, ih]
    constructor
    · rintro ⟨h1, ts, h2⟩
      obtain ⟨t, ht⟩ := Option.isSome_iff_exists.1 h1
      exact ⟨t :: ts, by unfold Typed at *; simp [ht, h2]⟩
    · rintro ⟨ts, h⟩
      cases ts with
      | nil => simp [Typed] at h
      | cons t ts =>
        simp only [Typed, List.map_cons, List.cons.injEq] at h
        exact ⟨by simp [h.1], ts, h.2⟩

theorem typed_cons {f : Ex → Option VT} {e : Ex} {es : List Ex} {ts : List VT} :
    Typed f (e :: es) ts ↔ ∃ t r, ts = t :: r ∧ f e = some t ∧ Typed f es r := by
  cases ts with
  | nil => simp [Typed]
  | cons t r => simp [Typed]

theorem typed_nil {f : Ex → Option VT} {ts : List VT} : Typed f [] ts ↔ ts = [] := by
  cases ts <;> simp [Typed]

theorem typed_len {f : Ex → Option VT} {es : List Ex} {ts : List VT} (h : Typed f es ts) : ts.length = es.length := by
  have := congrArg List.length h
  simpa using this.symm

/-- Fitting place by place. -/
def FitsAll (ps ts : List VT) : Prop := ∀ (i : Nat) (p t : VT), ps[i]? = some p → ts[i]? = some t → Fits p t

theorem fitsAll_cons {p t : VT} {ps ts : List VT} : FitsAll (p :: ps) (t :: ts) ↔ Fits p t ∧ FitsAll ps ts := by
  constructor
  · intro h
    exact ⟨h 0 p t rfl rfl, fun i a b ha hb => h (i + 1) a b (by simpa using ha) (by simpa using hb)⟩
  · rintro ⟨h0, h⟩ i a b ha hb
    cases i with
    | zero => simp only [List.getElem?_cons_zero, Option.some.injEq] at ha hb; subst ha hb; exact h0
    | succ i => exact h i a b (by simpa using ha) (by simpa using hb)

theorem checkArgs_iff (anyP : Bool) (ps : List VT) (es : List Ex) :
    checkArgs anyP ps es = true ↔ ∃ ts, Typed Ex.checked es ts ∧
      (ts.length = ps.length ∨ (anyP = true ∧ ps.length ≤ ts.length)) ∧ FitsAll ps ts := by
  induction ps generalizing es with
  | nil =>
    cases es with
    | nil =>
      simp only [checkArgs, true_iff]
      exact ⟨[], rfl, Or.inl rfl, by intro i p t h; simp at h⟩
    | cons e es =>
      simp only [checkArgs, Bool.and_eq_true, all_isSome_iff]
      constructor
      · rintro ⟨h1, ts, h2⟩
        exact ⟨ts, h2, Or.inr ⟨h1, by simp⟩, by intro i p t h; simp at h⟩
      · rintro ⟨ts, h2, h3, _⟩
        have hl := typed_len h2
        refine ⟨?_, ts, h2⟩
        rcases h3 with h3 | h3
        · rw [hl] at h3; simp at h3
        · exact h3.1
  | cons p ps ih =>
    cases es with
    | nil =>
      simp only [checkArgs, Bool.false_eq_true, false_iff]
      rintro ⟨ts, h, h2, _⟩
      rw [typed_nil] at h; subst h
      simp at h2
    | cons e es =>
      simp only [checkArgs]
      cases he : e.checked with
      | none =>
        simp only [Bool.false_eq_true, false_iff]
        rintro ⟨ts, h, _⟩
        rw [typed_cons] at h
        obtain ⟨t, r, _, h, _⟩ := h
        rw [he] at h; cases h
      | some t =>
        simp only [Bool.and_eq_true, ih, compatible_iff]
        constructor
        · rintro ⟨h1, ts, h2, h3, h4⟩
          refine ⟨t :: ts, typed_cons.2 ⟨t, ts, rfl, he, h2⟩, ?_, fitsAll_cons.2 ⟨h1, h4⟩⟩
          simpa using h3
        · rintro ⟨ts, h2, h3, h4⟩
          rw [typed_cons] at h2
          obtain ⟨t', r, rfl, h5, h6⟩ := h2
          rw [he] at h5; cases h5
          have h7 := fitsAll_cons.1 h4
          exact ⟨h7.1, r, h6, by simpa using h3, h7.2⟩

theorem makeArgs_iff (ps : List VT) (es : List Ex) :
    makeArgs ps es = true ↔ ∃ ts, Typed Ex.made es ts ∧ FitsAll ps ts := by
  induction es generalizing ps with
  | nil =>
    have : makeArgs ps [] = true := by cases ps <;> rfl
    simp only [this, true_iff]
    exact ⟨[], rfl, by intro i p t _ h; simp at h⟩
  | cons e es ih =>
    cases ps with
    | nil =>
      simp only [makeArgs, Bool.and_eq_true, ih]
      constructor
      · rintro ⟨h1, ts, h2, _⟩
        obtain ⟨t, ht⟩ := Option.isSome_iff_exists.1 h1
        exact ⟨t :: ts, typed_cons.2 ⟨t, ts, rfl, ht, h2⟩, by intro i p t h; simp at h⟩
      · rintro ⟨ts, h2, _⟩
        rw [typed_cons] at h2
        obtain ⟨t', r, rfl, h5, h6⟩ := h2
        exact ⟨by simp [h5], r, h6, by intro i p t h; simp at h⟩
    | cons p ps =>
      simp only [makeArgs]
      cases he : e.made with
      | none =>
        simp only [Bool.false_eq_true, false_iff]
        rintro ⟨ts, h, _⟩
        rw [typed_cons] at h
        obtain ⟨t, r, _, h, _⟩ := h
        rw [he] at h; cases h
      | some t =>
        simp only [Bool.and_eq_true, ih, compatible_iff]
        constructor
        · rintro ⟨h1, ts, h2, h4⟩
          exact ⟨t :: ts, typed_cons.2 ⟨t, ts, rfl, he, h2⟩, fitsAll_cons.2 ⟨h1, h4⟩⟩
        · rintro ⟨ts, h2, h4⟩
          rw [typed_cons] at h2
          obtain ⟨t', r, rfl, h5, h6⟩ := h2
          rw [he] at h5; cases h5
          have h7 := fitsAll_cons.1 h4
          exact ⟨h7.1, r, h6, h7.2⟩

theorem countOk_iff (s : Sym) (n : Nat) :
    countOk s n = true ↔ (n = s.params.length ∨ (s.anyParams = true ∧ s.params.length ≤ n)) := by
  simp only [countOk, Bool.or_eq_true, Bool.and_eq_true, decide_eq_true_eq]
  constructor
  · rintro (h | h)
    · exact Or.inl h
    · exact Or.inr ⟨h.1, by omega⟩
  · rintro (h | h)
    · exact Or.inl h
    · by_cases h2 : n = s.params.length
      · exact Or.inl h2
      · exact Or.inr ⟨h.1, by omega⟩

/-- **C103.** A lookup of a declared state is accepted exactly when its arguments agree with the
declaration, as far as their types are known both before and after the expressions are made, and its
tolerance is in order; its type is then the declared one. -/
theorem c103_lookup (tab : Table) (on : Bool) (n : String) (tol : Option Ex) (args : Option (List Ex)) (want : VT)
    (s : Sym) (hs : find tab.lookups n = some s) :
    let c : LookupCall := { onChange := on, name := .lit n, tol := tol, args := args }
    ((checkLookup tab c).isSome = true ∧ (makeLookup tab c want).isSome = true ↔
      TolOk c ∧
      (∀ as, args = some as → ∃ ts, Typed Ex.checked as ts ∧ Agree s ts) ∧
      (∃ ts, Typed Ex.made (args.getD []) ts ∧ Agree s ts)) ∧
    (∀ t, checkLookup tab c = some t → t = s.ret) ∧
    (∀ t, makeLookup tab c want = some t → t = s.ret) := by
  intro c
  have htol : TolOk c ↔ tolCheckOk on tol = true ∧
      tolMakeOk tol = true := by
    unfold TolOk
    cases tol with
    | none => simp [c, tolCheckOk, tolMakeOk]
    | some e => simp [c, numOk_iff, and_assoc, tolCheckOk, tolMakeOk]
  have hmk : (makeLookup tab c want).isSome = true ↔
      tolMakeOk tol = true ∧
      (∃ ts, Typed Ex.made (args.getD []) ts ∧ Agree s ts) := by
    have h1 : makeLookup tab c want =
        if countOk s (args.getD []).length && makeArgs s.params (args.getD []) &&
          tolMakeOk tol then some s.ret else none := by
      simp [makeLookup, c, NameEx.made, strOk, NameEx.constant, findOpt, hs, paramsOf]
    rw [h1]
    have h2 : ∀ (b : Bool) (v : VT), (if b then some v else none).isSome = true ↔ b = true := by
      intro b v; cases b <;> simp
    rw [h2]
    simp only [Bool.and_eq_true, countOk_iff, makeArgs_iff]
    constructor
    · rintro ⟨⟨h3, ts, h4, h5⟩, h6⟩
      refine ⟨h6, ts, h4, ?_, h5⟩
      rw [typed_len h4]; exact h3
    · rintro ⟨h6, ts, h4, h3, h5⟩
      rw [typed_len h4] at h3
      exact ⟨⟨h3, ts, h4, h5⟩, h6⟩
  have hck : (checkLookup tab c).isSome = true ↔
      tolCheckOk on tol = true ∧
      (∀ as, args = some as → ∃ ts, Typed Ex.checked as ts ∧ Agree s ts) := by
    have h1 : checkLookup tab c =
        if tolCheckOk on tol = false then none
        else match args with
          | none => some s.ret
          | some as => if checkArgs s.anyParams s.params as then some s.ret else none := by
      cases args <;>
        simp [checkLookup, c, NameEx.checked, NameEx.literal, strOk, findOpt, hs]
    rw [h1]
    cases hb : tolCheckOk on tol with
    | false => simp
    | true =>
      cases args with
      | none => simp
      | some as =>
        have h2 : ∀ (b : Bool) (v : VT), (if b then some v else none).isSome = true ↔ b = true := by
          intro b v; cases b <;> simp
        simp only [Bool.true_eq_false, if_false, h2, checkArgs_iff, true_and, Option.some.injEq]
        constructor
        · rintro ⟨ts, h4, h5, h6⟩ as' rfl
          exact ⟨ts, h4, h5, h6⟩
        · intro h
          obtain ⟨ts, h4, h5, h6⟩ := h as rfl
          exact ⟨ts, h4, h5, h6⟩
  refine ⟨?_, ?_, ?_⟩
  · rw [hck, hmk, htol]
    constructor
    · rintro ⟨⟨a, b⟩, c, d⟩; exact ⟨⟨a, c⟩, b, d⟩
    · rintro ⟨⟨a, c⟩, b, d⟩; exact ⟨⟨a, b⟩, c, d⟩
  · intro t ht
    simp only [checkLookup, c, NameEx.checked, NameEx.literal, strOk, findOpt, hs] at ht
    split at ht
    · cases ht
    · split at ht
      · cases ht
      · split at ht
        · cases ht; rfl
        · split at ht
          · cases ht; rfl
          · cases ht
  · intro t ht
    simp only [makeLookup, c, NameEx.made, NameEx.constant, strOk, findOpt, hs] at ht
    split at ht
    · cases ht
    · split at ht
      · cases ht; rfl
      · cases ht

/-- **C103.** So does a call by a name that is only known to be constant, such as a name handed to a
library: a lookup made of it agrees with the declaration. -/
theorem c103_lookup_constant (tab : Table) (c : LookupCall) (want : VT) (n : String) (s : Sym)
    (hn : c.name.constant = some n) (hs : find tab.lookups n = some s)
    (h : (makeLookup tab c want).isSome = true) :
    makeLookup tab c want = some s.ret ∧ ∃ ts, Typed Ex.made (c.args.getD []) ts ∧ Agree s ts := by
  obtain ⟨t, ht⟩ := Option.isSome_iff_exists.1 h
  simp only [makeLookup, hn, findOpt, hs] at ht
  split at ht
  · cases ht
  · split at ht
    · rename_i hc
      simp only [Bool.and_eq_true, countOk_iff, makeArgs_iff, paramsOf] at hc
      obtain ⟨⟨h3, ts, h4, h5⟩, h6⟩ := hc
      refine ⟨?_, ts, h4, ?_, h5⟩
      · cases ht
        obtain ⟨t', ht'⟩ := Option.isSome_iff_exists.1 h
        rw [ht']
        simp only [makeLookup, hn, findOpt, hs] at ht'
        split at ht'
        · cases ht'
        · split at ht'
          · cases ht'; rfl
          · cases ht'
      · rw [typed_len h4]; exact h3
    · cases ht

/-- **C103.** A call of a declared command that has an `<Arguments>` element is accepted exactly when
its parts are sound, the arguments agree with the declaration and the result fits its variable. -/
theorem c103_command_partial (tab : Table) (dest : Option Ex) (n : String) (as : List Ex) (s : Sym)
    (hs : find tab.commands n = some s) :
    let c : CommandCall := { dest := dest, name := .lit n, args := some as }
    (checkCommand tab c = true ∧ makeCommand tab c = true ↔
      (∀ d, dest = some d → ∃ t1 t2, d.checked = some t1 ∧ d.made = some t2 ∧ Fits t1 s.ret ∧ Fits t2 s.ret) ∧
      (∃ ts, Typed Ex.checked as ts) ∧
      (∃ ts, Typed Ex.made as ts ∧ Agree s ts)) := by
  intro c
  have hm : makeCommand tab c = true ↔
      (∀ d, dest = some d → ∃ t, d.made = some t ∧ Fits t s.ret) ∧ (∃ ts, Typed Ex.made as ts ∧ Agree s ts) := by
    simp only [makeCommand, c, NameEx.made, strOk, cmdSym, NameEx.constant, findOpt, hs, if_true, paramsOf,
      Bool.and_eq_true, countOk_iff, makeArgs_iff]
    constructor
    · rintro ⟨⟨⟨h1, _⟩, h2⟩, h3, ts, h4, h5⟩
      refine ⟨?_, ts, h4, ?_, h5⟩
      · rintro d rfl
        obtain ⟨t, ht⟩ := Option.isSome_iff_exists.1 h1
        refine ⟨t, ht, ?_⟩
        simp only [Option.bind_some, ht, destOk, compatible_iff] at h2
        exact h2
      · rw [typed_len h4]; exact h3
    · rintro ⟨h1, ts, h4, h3, h5⟩
      rw [typed_len h4] at h3
      refine ⟨⟨⟨?_, by simp⟩, ?_⟩, h3, ts, h4, h5⟩
      · cases dest with
        | none => rfl
        | some d => obtain ⟨t, ht, _⟩ := h1 d rfl; simp [ht]
      · cases dest with
        | none => simp [destOk]
        | some d => obtain ⟨t, ht, h⟩ := h1 d rfl; simp [ht, destOk, compatible_iff, h]
  have hc : checkCommand tab c = true ↔
      (∀ d, dest = some d → ∃ t, d.checked = some t ∧ Fits t s.ret) ∧ (∃ ts, Typed Ex.checked as ts) := by
    simp only [checkCommand, c, NameEx.checked, NameEx.literal, findOpt, hs, Bool.and_eq_true, all_isSome_iff]
    constructor
    · rintro ⟨⟨⟨h1, _⟩, h2⟩, h3⟩
      refine ⟨?_, h3⟩
      rintro d rfl
      obtain ⟨t, ht⟩ := Option.isSome_iff_exists.1 h1
      refine ⟨t, ht, ?_⟩
      simp only [Option.bind_some, ht, destOk, compatible_iff] at h2
      exact h2
    · rintro ⟨h1, h3⟩
      refine ⟨⟨⟨?_, rfl⟩, ?_⟩, h3⟩
      · cases dest with
        | none => rfl
        | some d => obtain ⟨t, ht, _⟩ := h1 d rfl; simp [ht]
      · cases dest with
        | none => simp [destOk]
        | some d => obtain ⟨t, ht, h⟩ := h1 d rfl; simp [ht, destOk, compatible_iff, h]
  rw [hc, hm]
  constructor
  · rintro ⟨⟨h1, h2⟩, h3, h4⟩
    refine ⟨?_, h2, h4⟩
    intro d hd
    obtain ⟨t1, a, b⟩ := h1 d hd
    obtain ⟨t2, a', b'⟩ := h3 d hd
    exact ⟨t1, t2, a, a', b, b'⟩
  · rintro ⟨h1, h2, h4⟩
    refine ⟨⟨?_, h2⟩, ?_, h4⟩
    · intro d hd
      obtain ⟨t1, t2, a, a', b, b'⟩ := h1 d hd
      exact ⟨t1, a, b⟩
    · intro d hd
      obtain ⟨t1, t2, a, a', b, b'⟩ := h1 d hd
      exact ⟨t2, a', b'⟩

/-- **C103, where it fails.** A call without an `<Arguments>` element is never compared with the
declaration (`commandXmlParser.cc:385-400`): whatever is declared, it is accepted. -/
theorem c103_no_arguments_unchecked (tab : Table) (n : String) :
    checkCommand tab { dest := none, name := .lit n, args := none } = true ∧
    makeCommand tab { dest := none, name := .lit n, args := none } = true := by
  simp [checkCommand, makeCommand, destOk, NameEx.checked, NameEx.made, strOk, compatible]

/-- **C103, where it fails.** A result variable of any type is accepted for a command declared without
a return value. -/
theorem c103_no_return_unchecked (tab : Table) (n : String) (s : Sym) (t : VT)
    (hs : find tab.commands n = some s) (hr : s.ret = .unknown) :
    checkCommand tab { dest := some ⟨some t, some t⟩, name := .lit n, args := none } = true ∧
    makeCommand tab { dest := some ⟨some t, some t⟩, name := .lit n, args := none } = true := by
  have h : compatible t s.ret = true := by rw [hr, compatible_iff]; exact Or.inr (Or.inl rfl)
  have hu : compatible t .unknown = true := by rw [← hr]; exact h
  simp [checkCommand, makeCommand, destOk, NameEx.checked, NameEx.made, NameEx.literal, NameEx.constant, findOpt, cmdSym,
    strOk, hs, hr, compatible]

/-- **C103.** Without a declaration nothing is asked of a call but that its parts are sound: an
undeclared lookup has the type asked for. -/
theorem c103_undeclared (tab : Table) (n : String) (as : List Ex) (want : VT)
    (hs : find tab.lookups n = none) :
    let c : LookupCall := { onChange := false, name := .lit n, tol := none, args := some as }
    (checkLookup tab c = some .unknown ↔ ∃ ts, Typed Ex.checked as ts) ∧
    (makeLookup tab c want = some want ↔ ∃ ts, Typed Ex.made as ts) := by
  intro c
  constructor
  · rw [← all_isSome_iff]
    have h1 : checkLookup tab c = if as.all (fun e => e.checked.isSome) then some .unknown else none := by
      simp [checkLookup, c, NameEx.checked, NameEx.literal, strOk, findOpt, hs, tolCheckOk]
    rw [h1]
    cases as.all (fun e => e.checked.isSome) <;> simp
  · have h1 : makeLookup tab c want = if makeArgs [] as then some want else none := by
      simp [makeLookup, c, NameEx.made, NameEx.constant, strOk, findOpt, hs, paramsOf, tolMakeOk]
    rw [h1]
    have h2 : (makeArgs [] as = true) ↔ ∃ ts, Typed Ex.made as ts := by
      rw [makeArgs_iff]
      constructor
      · rintro ⟨ts, h, _⟩; exact ⟨ts, h⟩
      · rintro ⟨ts, h⟩; exact ⟨ts, h, by intro i p t h; simp at h⟩
    rw [← h2]
    cases makeArgs [] as <;> simp

/-- A small table for the examples. -/
def exTable : Table :=
  { commands := [("drive", { ret := .boolean, params := [.real, .string] })]
    lookups := [("at", { ret := .boolean, params := [.string], anyParams := true })] }

/-- A call that agrees, and calls that do not: one argument too few, one of the wrong type, a result
that does not fit. -/
theorem c103_example :
    checkCommand exTable ⟨some ⟨some .boolean, some .boolean⟩, .lit "drive", some [⟨some .integer, some .integer⟩, ⟨some .string, some .string⟩]⟩ = true ∧
    makeCommand exTable ⟨some ⟨some .boolean, some .boolean⟩, .lit "drive", some [⟨some .integer, some .integer⟩, ⟨some .string, some .string⟩]⟩ = true ∧
    makeCommand exTable ⟨none, .lit "drive", some [⟨some .integer, some .integer⟩]⟩ = false ∧
    makeCommand exTable ⟨none, .lit "drive", some [⟨some .string, some .string⟩, ⟨some .string, some .string⟩]⟩ = false ∧
    makeCommand exTable ⟨some ⟨some .integer, some .integer⟩, .lit "drive", some [⟨some .integer, some .integer⟩, ⟨some .string, some .string⟩]⟩ = false ∧
    checkLookup exTable ⟨true, .lit "at", some ⟨some .real, some .real⟩, some [⟨some .string, some .string⟩, ⟨some .real, some .real⟩]⟩ = some .boolean ∧
    makeLookup exTable ⟨true, .lit "at", some ⟨some .real, some .real⟩, some [⟨some .string, some .string⟩, ⟨some .real, some .real⟩]⟩ .unknown = some .boolean ∧
    makeLookup exTable ⟨false, .lit "at", none, none⟩ .unknown = none := by
  decide

/-! ## C104: declarations mean what they say -/

theorem elem_name (t : String) (k : List Xml) : (Xml.elem t k).name = t := rfl
theorem elem_kids (t : String) (k : List Xml) : (Xml.elem t k).kids = k := rfl

theorem vd_kids (tag : String) (v : VD) :
    (VD.xml tag v).kids = .elem "Type" [.text v.typeName] :: (if v.array then [.elem "MaxSize" [.text "10"]] else []) := rfl

theorem arrayType_iff (n : String) : arrayType (parseType n) ≠ .unknown ↔
    (n = "Boolean" ∨ n = "Integer" ∨ n = "Real" ∨ n = "String") := by
  constructor
  · intro h
    cases ht : parseType n <;> rw [ht] at h <;> simp [arrayType] at h
    · exact Or.inl ((Verif.Text.c73_types n .boolean (by decide)).1 ht)
    · exact Or.inr (Or.inl ((Verif.Text.c73_types n .integer (by decide)).1 ht))
    · exact Or.inr (Or.inr (Or.inl ((Verif.Text.c73_types n .real (by decide)).1 ht)))
    · exact Or.inr (Or.inr (Or.inr ((Verif.Text.c73_types n .string (by decide)).1 ht)))
  · rintro (rfl | rfl | rfl | rfl) <;> decide

theorem checkValueDecl_iff (tag : String) (v : VD) : checkValueDecl (VD.xml tag v) = true ↔ v.Proper := by
  obtain ⟨n, a⟩ := v
  have hne : (parseType n ≠ .unknown ∨ n = "Any") → n ≠ "" := by
    rintro h rfl
    rcases h with h | h
    · exact h (by decide)
    · exact absurd h (by decide)
  cases a with
  | false =>
    have e : checkValueDecl (VD.xml tag ⟨n, false⟩) = (decide (n ≠ "") && (decide (parseType n ≠ .unknown) || decide (n = "Any")) && true) := rfl
    rw [e]
    simp only [Bool.and_eq_true, Bool.or_eq_true, decide_eq_true_eq, VD.Proper]
    constructor
    · rintro ⟨⟨_, h⟩, _⟩; exact ⟨h, by simp⟩
    · rintro ⟨h, _⟩; exact ⟨⟨hne h, h⟩, trivial⟩
  | true =>
    have e : checkValueDecl (VD.xml tag ⟨n, true⟩) = (decide (n ≠ "") && (decide (parseType n ≠ .unknown) || decide (n = "Any")) &&
      (true && decide (arrayType (parseType n) ≠ .unknown))) := rfl
    rw [e]
    simp only [Bool.and_eq_true, Bool.or_eq_true, decide_eq_true_eq, VD.Proper, arrayType_iff]
    constructor
    · rintro ⟨⟨_, h⟩, _, h2⟩; exact ⟨h, fun _ => h2⟩
    · rintro ⟨h, h2⟩; exact ⟨⟨hne h, h⟩, trivial, h2 trivial⟩

theorem parseValueDecl_xml (tag : String) (v : VD) : parseValueDecl (VD.xml tag v) = v.type := by
  obtain ⟨n, a⟩ := v
  cases a <;> rfl

theorem vd_name (tag : String) (v : VD) : (VD.xml tag v).name = tag := rfl

open Classical in
theorem checkParams_xml (ps : List VD) (rest : List Xml) (hrest : ∀ x ∈ rest.head?, x.name ≠ "Parameter") :
    checkParams (ps.map (VD.xml "Parameter") ++ rest) = if (∀ v ∈ ps, v.Proper) then some rest else none := by
  induction ps with
  | nil =>
    simp only [List.map_nil, List.nil_append, List.not_mem_nil, false_implies, implies_true, if_true]
    cases rest with
    | nil => rfl
    | cons x r =>
      have := hrest x (by simp)
      simp [checkParams, this]
  | cons v ps ih =>
    simp only [List.map_cons, List.cons_append, checkParams, vd_name, if_true, ih]
    by_cases hv : v.Proper
    · rw [if_pos ((checkValueDecl_iff _ v).2 hv)]
      simp [hv]
    · have : ¬ checkValueDecl (VD.xml "Parameter" v) = true := by rw [checkValueDecl_iff]; exact hv
      rw [if_neg this, if_neg]
      intro h; exact hv (h v (by simp))

theorem anyXml_head (a : Bool) : ∀ x ∈ (anyXml a).head?, x.name ≠ "Parameter" := by
  cases a <;> simp [anyXml, elem_name]

theorem skipAny_anyXml (a : Bool) : skipAny (anyXml a) = [] := by cases a <;> rfl

theorem checkDecl_iff (d : GD) : checkGlobals [d.xml] = true ↔ d.Proper := by
  classical
  cases d with
  | command n r ps a =>
    simp only [checkGlobals, GD.xml, elem_name, if_true, Bool.and_true, checkCommandDecl, elem_kids, Xml.childValue, firstText,
      decide_true, Bool.true_and, GD.Proper, Bool.and_eq_true, decide_eq_true_eq]
    cases r with
    | none =>
      have h1 : checkReturn (([] : List Xml) ++ (ps.map (VD.xml "Parameter") ++ anyXml a)) =
          some (ps.map (VD.xml "Parameter") ++ anyXml a) := by
        cases ps with
        | nil => cases a <;> rfl
        | cons p ps => rfl
      simp only [Option.map_none, Option.toList_none, h1, checkParams_xml ps _ (anyXml_head a)]
      by_cases h : ∀ v ∈ ps, v.Proper
      · rw [if_pos h]; simpa using fun _ => h
      · rw [if_neg h]; simp [h]
    | some v =>
      simp only [Option.map_some, Option.toList_some, List.cons_append, List.nil_append, checkReturn, vd_name, if_true]
      by_cases hv : v.Proper
      · rw [if_pos ((checkValueDecl_iff _ v).2 hv)]
        simp only [checkParams_xml ps _ (anyXml_head a)]
        by_cases h : ∀ v ∈ ps, v.Proper
        · rw [if_pos h]; simpa [hv] using fun _ => h
        · rw [if_neg h]; simp [h]
      · have : ¬ checkValueDecl (VD.xml "Return" v) = true := by rw [checkValueDecl_iff]; exact hv
        rw [if_neg this]; simp [hv]
  | state n r ps a =>
    simp only [checkGlobals, GD.xml, elem_name, Bool.and_true, checkStateDecl, elem_kids, Xml.childValue, firstText,
      decide_true, Bool.true_and, GD.Proper, Bool.and_eq_true, decide_eq_true_eq, vd_name, checkValueDecl_iff,
      checkParams_xml ps _ (anyXml_head a), if_true, String.reduceEq, if_false]
    by_cases h : ∀ v ∈ ps, v.Proper
    · rw [if_pos h]; simpa [skipAny_anyXml] using fun _ _ => h
    · rw [if_neg h]; simp [h]
  | mutex n =>
    simp [checkGlobals, GD.xml, elem_name, checkMutexDecl, elem_kids, Xml.childValue, firstText, GD.Proper]

theorem checkGlobals_cons (x : Xml) (xs : List Xml) : checkGlobals (x :: xs) = (checkGlobals [x] && checkGlobals xs) := by
  simp [checkGlobals]

theorem checkGlobals_iff (ds : List GD) : checkGlobals (ds.map GD.xml) = true ↔ ∀ d ∈ ds, d.Proper := by
  induction ds with
  | nil => simp [checkGlobals]
  | cons d ds ih =>
    rw [List.map_cons, checkGlobals_cons, Bool.and_eq_true, checkDecl_iff, ih]
    simp

theorem withTag_append (t : String) (a b : List Xml) : withTag t (a ++ b) = withTag t a ++ withTag t b := by
  induction a with
  | nil => rfl
  | cons x a ih =>
    simp only [List.cons_append, withTag, ih]
    split <;> simp

theorem withTag_params (ps : List VD) : withTag "Parameter" (ps.map (VD.xml "Parameter")) = ps.map (VD.xml "Parameter") := by
  induction ps with
  | nil => rfl
  | cons v ps ih => simp only [List.map_cons, withTag, vd_name, if_true, ih]

theorem withTag_any (a : Bool) : withTag "Parameter" (anyXml a) = [] := by cases a <;> rfl

theorem fromTag_params (t : String) (ht : t ≠ "Parameter") (ps : List VD) (rest : List Xml) :
    fromTag t (ps.map (VD.xml "Parameter") ++ rest) = fromTag t rest := by
  induction ps with
  | nil => rfl
  | cons v ps ih =>
    simp only [List.map_cons, List.cons_append, fromTag, vd_name, ih]
    rw [if_neg (fun h => ht h.symm)]

theorem parseSym_command (n : String) (r : Option VD) (ps : List VD) (a : Bool) :
    parseSym (GD.command n r ps a).xml =
      { ret := match r with | some v => v.type | none => .unknown, params := ps.map VD.type, anyParams := a } := by
  have hp : ∀ l : List VD, (l.map (VD.xml "Parameter")).map parseValueDecl = l.map VD.type := by
    intro l; simp [parseValueDecl_xml]
  cases r with
  | none =>
    have h1 : retType (GD.command n none ps a).xml = .unknown := by
      simp only [retType, GD.xml, elem_kids, fromTag, elem_name, String.reduceEq, if_false, Option.map_none, Option.toList_none,
        List.nil_append, fromTag_params "Return" (by decide)]
      cases a <;> rfl
    show Sym.mk (retType (GD.command n none ps a).xml) _ _ = _
    rw [h1]
    simp only [GD.xml, elem_kids, withTag, elem_name, String.reduceEq, if_false, Option.map_none, Option.toList_none,
      List.nil_append, withTag_append, withTag_params, withTag_any, List.append_nil, hp, fromTag,
      fromTag_params "AnyParameters" (by decide)]
    cases a <;> rfl
  | some v =>
    have h1 : retType (GD.command n (some v) ps a).xml = v.type := by
      simp [retType, GD.xml, elem_kids, fromTag, elem_name, vd_name, parseValueDecl_xml]
    show Sym.mk (retType (GD.command n (some v) ps a).xml) _ _ = _
    rw [h1]
    simp only [GD.xml, elem_kids, withTag, elem_name, String.reduceEq, if_false, Option.map_some, Option.toList_some,
      List.cons_append, List.nil_append, vd_name, withTag_append, withTag_params, withTag_any, List.append_nil, hp, fromTag,
      fromTag_params "AnyParameters" (by decide)]
    cases a <;> rfl

theorem parseSym_state (n : String) (r : VD) (ps : List VD) (a : Bool) :
    parseSym (GD.state n r ps a).xml = { ret := r.type, params := ps.map VD.type, anyParams := a } := by
  have hp : ∀ l : List VD, (l.map (VD.xml "Parameter")).map parseValueDecl = l.map VD.type := by
    intro l; simp [parseValueDecl_xml]
  have h1 : retType (GD.state n r ps a).xml = r.type := by
    simp [retType, GD.xml, elem_kids, fromTag, elem_name, vd_name, parseValueDecl_xml]
  show Sym.mk (retType (GD.state n r ps a).xml) _ _ = _
  rw [h1]
  simp only [GD.xml, elem_kids, withTag, elem_name, String.reduceEq, if_false,
    vd_name, withTag_append, withTag_params, withTag_any, List.append_nil, hp, fromTag,
    fromTag_params "AnyParameters" (by decide)]
  cases a <;> rfl

theorem name_of (d : GD) : d.xml.childValueOf "Name" = match d with
    | .command n _ _ _ => n | .state n _ _ _ => n | .mutex n => n := by
  cases d <;> simp [GD.xml, Xml.childValueOf, elem_kids, fromTag, elem_name, Xml.childValue, firstText]

/-- The table agrees with the declarations read so far. -/
structure Reads (t : Table) (ds : List GD) : Prop where
  cmds : ∀ n s, find t.commands n = some s ↔ ∃ d ∈ ds, d.DeclaresCommand n s
  lks : ∀ n s, find t.lookups n = some s ↔ ∃ d ∈ ds, d.DeclaresState n s
  mtx : ∀ n, n ∈ t.mutexes ↔ n ∈ mutexNames ds

theorem mem_commandNames {ds : List GD} {n : String} : n ∈ commandNames ds ↔ ∃ d ∈ ds, ∃ s, d.DeclaresCommand n s := by
  simp only [commandNames, List.mem_filterMap]
  constructor
  · rintro ⟨d, hd, h⟩
    cases d with
    | command m r ps a => simp only [Option.some.injEq] at h; subst h; exact ⟨_, hd, _, r, ps, a, rfl, rfl⟩
    | state m r ps a => cases h
    | mutex m => cases h
  · rintro ⟨d, hd, s, r, ps, a, rfl, _⟩
    exact ⟨_, hd, rfl⟩

theorem mem_stateNames {ds : List GD} {n : String} : n ∈ stateNames ds ↔ ∃ d ∈ ds, ∃ s, d.DeclaresState n s := by
  simp only [stateNames, List.mem_filterMap]
  constructor
  · rintro ⟨d, hd, h⟩
    cases d with
    | state m r ps a => simp only [Option.some.injEq] at h; subst h; exact ⟨_, hd, _, r, ps, a, rfl, rfl⟩
    | command m r ps a => cases h
    | mutex m => cases h
  · rintro ⟨d, hd, s, r, ps, a, rfl, _⟩
    exact ⟨_, hd, rfl⟩

theorem find_none_iff {m : List (String × Sym)} {n : String} : find m n = none ↔ ∀ s, find m n ≠ some s := by
  cases find m n <;> simp

theorem add_spec (m : List (String × Sym)) (n : String) (s : Sym) :
    (add m n s = none ↔ ∃ s', find m n = some s') ∧
    (∀ m', add m n s = some m' → ∀ k t, find m' k = some t ↔ (find m k = some t ∨ (k = n ∧ t = s))) := by
  unfold add
  cases hf : find m n with
  | some s' => simp
  | none =>
    simp only [reduceCtorEq, exists_false, Option.some.injEq, true_and]
    rintro m' rfl k t
    simp only [find]
    by_cases h : n = k
    · subst h; simp [hf, eq_comm]
    · rw [if_neg h]
      constructor
      · exact Or.inl
      · rintro (h2 | h2)
        · exact h2
        · exact absurd h2.1.symm h

/-- One more declaration. -/
theorem parseDecl_step (t : Table) (pre : List GD) (d : GD) (h : Reads t pre) :
    (parseDecl t d.xml = none ↔ (∃ n s, d.DeclaresCommand n s ∧ n ∈ commandNames pre) ∨
      (∃ n s, d.DeclaresState n s ∧ n ∈ stateNames pre) ∨ (∃ n, d = .mutex n ∧ n ∈ mutexNames pre)) ∧
    ∀ t', parseDecl t d.xml = some t' → Reads t' (pre ++ [d]) := by
  cases d with
  | command n r ps a =>
    have hp : parseDecl t (GD.command n r ps a).xml =
        (add t.commands n (parseSym (GD.command n r ps a).xml)).map fun m => { t with commands := m } := by
      simp [parseDecl, name_of, show (GD.command n r ps a).xml.name = "CommandDeclaration" from rfl]
    have hadd := add_spec t.commands n (parseSym (GD.command n r ps a).xml)
    have hself : GD.DeclaresCommand (.command n r ps a) n (parseSym (GD.command n r ps a).xml) :=
      ⟨r, ps, a, rfl, parseSym_command n r ps a⟩
    rw [hp]
    constructor
    · rw [Option.map_eq_none_iff, hadd.1]
      constructor
      · rintro ⟨s', hs'⟩
        obtain ⟨d', hd', hc⟩ := (h.cmds n s').1 hs'
        exact Or.inl ⟨n, _, hself, mem_commandNames.2 ⟨d', hd', s', hc⟩⟩
      · rintro (⟨n', s, ⟨r', ps', a', he, _⟩, hm⟩ | ⟨n', s, ⟨r', ps', a', he, _⟩, hm⟩ | ⟨n', he, _⟩)
        · cases he
          obtain ⟨d', hd', s', hc⟩ := mem_commandNames.1 hm
          exact ⟨s', (h.cmds n s').2 ⟨d', hd', hc⟩⟩
        · cases he
        · cases he
    · intro t' ht'
      rw [Option.map_eq_some_iff] at ht'
      obtain ⟨m, hm, rfl⟩ := ht'
      refine ⟨?_, ?_, ?_⟩
      · intro k s
        rw [hadd.2 m hm k s, h.cmds]
        simp only [List.mem_append, List.mem_singleton]
        constructor
        · rintro (⟨d', hd', hc⟩ | ⟨rfl, rfl⟩)
          · exact ⟨d', Or.inl hd', hc⟩
          · exact ⟨_, Or.inr rfl, hself⟩
        · rintro ⟨d', hd' | rfl, hc⟩
          · exact Or.inl ⟨d', hd', hc⟩
          · obtain ⟨r', ps', a', he, hs⟩ := hc
            cases he
            exact Or.inr ⟨rfl, hs.trans (parseSym_command n r ps a).symm⟩
      · intro k s
        show find t.lookups k = some s ↔ _
        rw [h.lks]
        simp only [List.mem_append, List.mem_singleton]
        constructor
        · rintro ⟨d', hd', hc⟩; exact ⟨d', Or.inl hd', hc⟩
        · rintro ⟨d', hd' | rfl, hc⟩
          · exact ⟨d', hd', hc⟩
          · obtain ⟨r', ps', a', he, hs⟩ := hc; cases he
      · intro k
        show k ∈ t.mutexes ↔ _
        rw [h.mtx]; simp [mutexNames]
  | state n r ps a =>
    have hp : parseDecl t (GD.state n r ps a).xml =
        (add t.lookups n (parseSym (GD.state n r ps a).xml)).map fun m => { t with lookups := m } := by
      simp [parseDecl, name_of, show (GD.state n r ps a).xml.name = "StateDeclaration" from rfl]
    have hadd := add_spec t.lookups n (parseSym (GD.state n r ps a).xml)
    have hself : GD.DeclaresState (.state n r ps a) n (parseSym (GD.state n r ps a).xml) :=
      ⟨r, ps, a, rfl, parseSym_state n r ps a⟩
    rw [hp]
    constructor
    · rw [Option.map_eq_none_iff, hadd.1]
      constructor
      · rintro ⟨s', hs'⟩
        obtain ⟨d', hd', hc⟩ := (h.lks n s').1 hs'
        exact Or.inr (Or.inl ⟨n, _, hself, mem_stateNames.2 ⟨d', hd', s', hc⟩⟩)
      · rintro (⟨n', s, ⟨r', ps', a', he, _⟩, hm⟩ | ⟨n', s, ⟨r', ps', a', he, _⟩, hm⟩ | ⟨n', he, _⟩)
        · cases he
        · cases he
          obtain ⟨d', hd', s', hc⟩ := mem_stateNames.1 hm
          exact ⟨s', (h.lks n s').2 ⟨d', hd', hc⟩⟩
        · cases he
    · intro t' ht'
      rw [Option.map_eq_some_iff] at ht'
      obtain ⟨m, hm, rfl⟩ := ht'
      refine ⟨?_, ?_, ?_⟩
      · intro k s
        show find t.commands k = some s ↔ _
        rw [h.cmds]
        simp only [List.mem_append, List.mem_singleton]
        constructor
        · rintro ⟨d', hd', hc⟩; exact ⟨d', Or.inl hd', hc⟩
        · rintro ⟨d', hd' | rfl, hc⟩
          · exact ⟨d', hd', hc⟩
          · obtain ⟨r', ps', a', he, hs⟩ := hc; cases he
      · intro k s
        rw [hadd.2 m hm k s, h.lks]
        simp only [List.mem_append, List.mem_singleton]
        constructor
        · rintro (⟨d', hd', hc⟩ | ⟨rfl, rfl⟩)
          · exact ⟨d', Or.inl hd', hc⟩
          · exact ⟨_, Or.inr rfl, hself⟩
        · rintro ⟨d', hd' | rfl, hc⟩
          · exact Or.inl ⟨d', hd', hc⟩
          · obtain ⟨r', ps', a', he, hs⟩ := hc
            cases he
            exact Or.inr ⟨rfl, hs.trans (parseSym_state n r ps a).symm⟩
      · intro k
        show k ∈ t.mutexes ↔ _
        rw [h.mtx]; simp [mutexNames]
  | mutex n =>
    have hp : parseDecl t (GD.mutex n).xml =
        if n ∈ t.mutexes then none else some { t with mutexes := n :: t.mutexes } := by
      simp [parseDecl, name_of, show (GD.mutex n).xml.name = "DeclareMutex" from rfl]
    rw [hp]
    constructor
    · have hm := h.mtx n
      constructor
      · intro hn
        split at hn
        · rename_i h1; exact Or.inr (Or.inr ⟨n, rfl, hm.1 h1⟩)
        · cases hn
      · rintro (⟨n', s, ⟨r', ps', a', he, _⟩, _⟩ | ⟨n', s, ⟨r', ps', a', he, _⟩, _⟩ | ⟨n', he, h1⟩)
        · cases he
        · cases he
        · cases he; rw [if_pos (hm.2 h1)]
    · intro t' ht'
      split at ht'
      · cases ht'
      · cases ht'
        refine ⟨?_, ?_, ?_⟩
        · intro k s
          show find t.commands k = some s ↔ _
          rw [h.cmds]
          simp only [List.mem_append, List.mem_singleton]
          constructor
          · rintro ⟨d', hd', hc⟩; exact ⟨d', Or.inl hd', hc⟩
          · rintro ⟨d', hd' | rfl, hc⟩
            · exact ⟨d', hd', hc⟩
            · obtain ⟨r', ps', a', he, hs⟩ := hc; cases he
        · intro k s
          show find t.lookups k = some s ↔ _
          rw [h.lks]
          simp only [List.mem_append, List.mem_singleton]
          constructor
          · rintro ⟨d', hd', hc⟩; exact ⟨d', Or.inl hd', hc⟩
          · rintro ⟨d', hd' | rfl, hc⟩
            · exact ⟨d', hd', hc⟩
            · obtain ⟨r', ps', a', he, hs⟩ := hc; cases he
        · intro k
          simp [mutexNames, List.filterMap_append, or_comm, h.mtx]

/-- No command, state or mutex is declared twice. -/
def NoDup (ds : List GD) : Prop := (commandNames ds).Nodup ∧ (stateNames ds).Nodup ∧ (mutexNames ds).Nodup

theorem noDup_snoc (pre : List GD) (d : GD) : NoDup (pre ++ [d]) ↔ NoDup pre ∧
    ¬ ((∃ n s, d.DeclaresCommand n s ∧ n ∈ commandNames pre) ∨
      (∃ n s, d.DeclaresState n s ∧ n ∈ stateNames pre) ∨ (∃ n, d = .mutex n ∧ n ∈ mutexNames pre)) := by
  have happ : ∀ (l : List String) (x : String), (l ++ [x]).Nodup ↔ l.Nodup ∧ x ∉ l := by
    intro l x
    rw [List.nodup_append]
    simp only [List.nodup_cons, List.not_mem_nil, not_false_eq_true, List.nodup_nil, and_self, List.mem_singleton, true_and]
    constructor
    · rintro ⟨h1, h2⟩; exact ⟨h1, fun h => h2 x h x rfl rfl⟩
    · rintro ⟨h1, h2⟩; exact ⟨h1, by rintro a ha b rfl rfl; exact h2 ha⟩
  cases d with
  | command n r ps a =>
    have e1 : commandNames (pre ++ [GD.command n r ps a]) = commandNames pre ++ [n] := by simp [commandNames]
    have e2 : stateNames (pre ++ [GD.command n r ps a]) = stateNames pre := by simp [stateNames]
    have e3 : mutexNames (pre ++ [GD.command n r ps a]) = mutexNames pre := by simp [mutexNames]
    unfold NoDup
    rw [e1, e2, e3, happ]
    constructor
    · rintro ⟨⟨h1, h2⟩, h3, h4⟩
      refine ⟨⟨h1, h3, h4⟩, ?_⟩
      rintro (⟨n', s, ⟨r', ps', a', he, _⟩, hm⟩ | ⟨n', s, ⟨r', ps', a', he, _⟩, hm⟩ | ⟨n', he, _⟩)
      · cases he; exact h2 hm
      · cases he
      · cases he
    · rintro ⟨⟨h1, h3, h4⟩, h⟩
      exact ⟨⟨h1, fun hm => h (Or.inl ⟨n, _, ⟨r, ps, a, rfl, rfl⟩, hm⟩)⟩, h3, h4⟩
  | state n r ps a =>
    have e1 : commandNames (pre ++ [GD.state n r ps a]) = commandNames pre := by simp [commandNames]
    have e2 : stateNames (pre ++ [GD.state n r ps a]) = stateNames pre ++ [n] := by simp [stateNames]
    have e3 : mutexNames (pre ++ [GD.state n r ps a]) = mutexNames pre := by simp [mutexNames]
    unfold NoDup
    rw [e1, e2, e3, happ]
    constructor
    · rintro ⟨h1, ⟨h3, h2⟩, h4⟩
      refine ⟨⟨h1, h3, h4⟩, ?_⟩
      rintro (⟨n', s, ⟨r', ps', a', he, _⟩, hm⟩ | ⟨n', s, ⟨r', ps', a', he, _⟩, hm⟩ | ⟨n', he, _⟩)
      · cases he
      · cases he; exact h2 hm
      · cases he
    · rintro ⟨⟨h1, h3, h4⟩, h⟩
      exact ⟨h1, ⟨h3, fun hm => h (Or.inr (Or.inl ⟨n, _, ⟨r, ps, a, rfl, rfl⟩, hm⟩))⟩, h4⟩
  | mutex n =>
    have e1 : commandNames (pre ++ [GD.mutex n]) = commandNames pre := by simp [commandNames]
    have e2 : stateNames (pre ++ [GD.mutex n]) = stateNames pre := by simp [stateNames]
    have e3 : mutexNames (pre ++ [GD.mutex n]) = mutexNames pre ++ [n] := by simp [mutexNames]
    unfold NoDup
    rw [e1, e2, e3, happ]
    constructor
    · rintro ⟨h1, h3, h4, h2⟩
      refine ⟨⟨h1, h3, h4⟩, ?_⟩
      rintro (⟨n', s, ⟨r', ps', a', he, _⟩, hm⟩ | ⟨n', s, ⟨r', ps', a', he, _⟩, hm⟩ | ⟨n', he, hm⟩)
      · cases he
      · cases he
      · cases he; exact h2 hm
    · rintro ⟨⟨h1, h3, h4⟩, h⟩
      exact ⟨h1, h3, h4, fun hm => h (Or.inr (Or.inr ⟨n, rfl, hm⟩))⟩

theorem parseGlobals_spec (ds : List GD) : ∀ (t : Table) (pre : List GD), Reads t pre → NoDup pre →
    ((parseGlobals t (ds.map GD.xml)).isSome = true ↔ NoDup (pre ++ ds)) ∧
    ∀ t', parseGlobals t (ds.map GD.xml) = some t' → Reads t' (pre ++ ds) := by
  induction ds with
  | nil =>
    intro t pre h hn
    simp only [List.map_nil, parseGlobals, List.append_nil, Option.isSome_some, true_iff, Option.some.injEq]
    exact ⟨hn, by rintro t' rfl; exact h⟩
  | cons d ds ih =>
    intro t pre h hn
    have hs := parseDecl_step t pre d h
    have hcat : pre ++ d :: ds = (pre ++ [d]) ++ ds := by simp
    simp only [List.map_cons, parseGlobals]
    cases hp : parseDecl t d.xml with
    | none =>
      have hbad := hs.1.1 hp
      simp only [Option.isSome_none, Bool.false_eq_true, false_iff, reduceCtorEq, false_implies, implies_true, and_true]
      intro hnd
      rw [hcat] at hnd
      have : NoDup (pre ++ [d]) := by
        unfold NoDup at hnd ⊢
        refine ⟨?_, ?_, ?_⟩
        · exact (List.Nodup.sublist (by rw [commandNames, commandNames, List.filterMap_append (l := pre ++ [d])]; exact List.sublist_append_left _ _) hnd.1)
        · exact (List.Nodup.sublist (by rw [stateNames, stateNames, List.filterMap_append (l := pre ++ [d])]; exact List.sublist_append_left _ _) hnd.2.1)
        · exact (List.Nodup.sublist (by rw [mutexNames, mutexNames, List.filterMap_append (l := pre ++ [d])]; exact List.sublist_append_left _ _) hnd.2.2)
      exact ((noDup_snoc pre d).1 this).2 hbad
    | some t1 =>
      have h1 := hs.2 t1 hp
      have hn1 : NoDup (pre ++ [d]) := by
        rw [noDup_snoc]
        exact ⟨hn, fun hb => by rw [hs.1.2 hb] at hp; cases hp⟩
      have := ih t1 (pre ++ [d]) h1 hn1
      rw [hcat]
      exact this

/-- **C104.** Global declarations written as the schema says are accepted exactly when every type is
proper and no command, state or mutex is declared twice; and then a name is known as a command (or as a
state) exactly with the return type, parameter types and openness its declaration gives. -/
theorem c104_declarations (ds : List GD) :
    ((declare (ds.map GD.xml)).isSome = true ↔ (∀ d ∈ ds, d.Proper) ∧
      (commandNames ds).Nodup ∧ (stateNames ds).Nodup ∧ (mutexNames ds).Nodup) ∧
    ∀ t, declare (ds.map GD.xml) = some t →
      (∀ n s, find t.commands n = some s ↔ ∃ d ∈ ds, d.DeclaresCommand n s) ∧
      (∀ n s, find t.lookups n = some s ↔ ∃ d ∈ ds, d.DeclaresState n s) := by
  have h0 : Reads {} [] := ⟨by simp [find], by simp [find], by simp [mutexNames]⟩
  have hn0 : NoDup [] := by simp [NoDup, commandNames, stateNames, mutexNames]
  have := parseGlobals_spec ds {} [] h0 hn0
  simp only [List.nil_append] at this
  unfold declare
  by_cases hc : checkGlobals (ds.map GD.xml) = true
  · rw [if_pos hc]
    refine ⟨?_, fun t ht => ⟨(this.2 t ht).cmds, (this.2 t ht).lks⟩⟩
    rw [this.1]
    exact ⟨fun h => ⟨(checkGlobals_iff ds).1 hc, h⟩, fun h => h.2⟩
  · rw [if_neg hc]
    simp only [Option.isSome_none, Bool.false_eq_true, false_iff, reduceCtorEq, false_implies, implies_true, and_true]
    exact fun h => hc ((checkGlobals_iff ds).2 h.1)

/-- **C104.** The order of the declarations does not matter. -/
theorem c104_order (ds ds' : List GD) (h : ds.Perm ds') (t t' : Table)
    (ht : declare (ds.map GD.xml) = some t) (ht' : declare (ds'.map GD.xml) = some t') (n : String) :
    find t.commands n = find t'.commands n ∧ find t.lookups n = find t'.lookups n := by
  have h1 := (c104_declarations ds).2 t ht
  have h2 := (c104_declarations ds').2 t' ht'
  constructor
  · apply Option.ext
    intro s
    rw [h1.1, h2.1]
    constructor
    · rintro ⟨d, hd, x⟩; exact ⟨d, h.mem_iff.1 hd, x⟩
    · rintro ⟨d, hd, x⟩; exact ⟨d, h.mem_iff.2 hd, x⟩
  · apply Option.ext
    intro s
    rw [h1.2, h2.2]
    constructor
    · rintro ⟨d, hd, x⟩; exact ⟨d, h.mem_iff.1 hd, x⟩
    · rintro ⟨d, hd, x⟩; exact ⟨d, h.mem_iff.2 hd, x⟩

/-- A command and a state of the same name, and a mutex: accepted, with their types. A second command
of that name, or an array of dates, is refused. -/
theorem c104_example :
    (declare ([GD.command "go" none [⟨"Real", false⟩, ⟨"Integer", true⟩] true, .state "go" ⟨"Any", false⟩ [] false,
        .mutex "m"].map GD.xml)).map (fun t => (find t.commands "go", find t.lookups "go")) =
      some (some { ret := .unknown, params := [.real, .integerArray], anyParams := true }, some { ret := .unknown, params := [] }) ∧
    declare ([GD.command "go" none [] true, .command "go" none [] false].map GD.xml) = none ∧
    declare ([GD.command "go" none [⟨"Date", true⟩] false].map GD.xml) = none := by
  decide

/-- **C104, where it fails.** What follows `<AnyParameters>` in the declaration of a command is not
checked (`parseGlobalDeclarations.cc:98-104`), yet it is used: a parameter of a meaningless type is
accepted there, as one of unknown type. -/
theorem c104_trailing_unchecked :
    (declare [.elem "CommandDeclaration" [.elem "Name" [.text "go"], .elem "AnyParameters" [],
        .elem "Parameter" [.elem "Type" [.text "Rael"]]]]).map (fun t => find t.commands "go") =
      some (some { ret := .unknown, params := [.unknown], anyParams := true }) ∧
    declare [.elem "CommandDeclaration" [.elem "Name" [.text "go"],
        .elem "Parameter" [.elem "Type" [.text "Rael"]]]] = none := by
  decide

/-! ## C105: the declarations in force are those of the file being read -/

mutual
theorem run_meaning {τ : Type} (c : Ctx τ) (hc : c.cur = none → c.stack = []) (a : Act τ) :
    a.run c = (c, (meaning c.cur a).1, (meaning c.cur a).2) := by
  cases a with
  | use n => rfl
  | fail => rfl
  | file t as =>
    have hp := push_ok c t
    have := runActs_meaning (c.push t) hp.1 as
    simp only [Act.run, this, meaning, hp.2.1]
    rw [hp.2.2 hc]
  | guarded t as =>
    have hp := push_ok c t
    have := runActs_meaning (c.push t) hp.1 as
    simp only [Act.run, this, meaning, hp.2.1]
    rw [hp.2.2 hc]

theorem runActs_meaning {τ : Type} (c : Ctx τ) (hc : c.cur = none → c.stack = []) (as : List (Act τ)) :
    runActs c as = (c, (meanings c.cur as).1, (meanings c.cur as).2) := by
  cases as with
  | nil => rfl
  | cons a as =>
    have h1 := run_meaning c hc a
    have h2 := runActs_meaning c hc as
    simp only [runActs, h1, h2, meanings]
    cases hm : (meaning c.cur a).2 <;> simp [hm]

theorem push_ok {τ : Type} (c : Ctx τ) (t : τ) :
    ((c.push t).cur = none → (c.push t).stack = []) ∧ (c.push t).cur = some t ∧
    ((c.cur = none → c.stack = []) → (c.push t).pop = c) := by
  obtain ⟨cur, st⟩ := c
  cases cur with
  | none =>
    refine ⟨by simp [Ctx.push], rfl, ?_⟩
    intro h
    have : st = [] := h rfl
    subst this; rfl
  | some x => exact ⟨by simp [Ctx.push], rfl, fun _ => rfl⟩
end

/-- **C105.** Whatever files are read inside each other, and whatever fails, a name is looked up in
the declarations of the file it is written in, and afterwards everything is as before. -/
theorem c105_scope {τ : Type} (acts : List (Act τ)) :
    runActs ({} : Ctx τ) acts = ({}, (meanings none acts).1, (meanings none acts).2) :=
  runActs_meaning {} (fun _ => rfl) acts

/-- A plan that calls a library which calls another that fails; the next plan is not affected. -/
theorem c105_example :
    runActs ({} : Ctx Nat) [.guarded 1 [.use 10, .file 2 [.use 20, .file 3 [.fail, .use 30]], .use 11], .file 4 [.use 40]] =
      ({}, [(10, some 1), (20, some 2), (40, some 4)], true) := by
  rfl

/-! ## C106: resource lists -/

/-- The resource list of a command was accepted. -/
def AcceptsRes (rs : List (List ResPart)) : Prop := checkResources rs = true ∧ makeResources rs = true

theorem resNames_mem {r : List ResPart} {n : NameEx} : n ∈ resNames r ↔ .name n ∈ r := by
  induction r with
  | nil => simp [resNames]
  | cons p r ih => cases p <;> simp [resNames, ih]

theorem resPrios_mem {r : List ResPart} {e : Ex} : e ∈ resPrios r ↔ .priority e ∈ r := by
  induction r with
  | nil => simp [resPrios]
  | cons p r ih => cases p <;> simp [resPrios, ih]

theorem noDupNames_iff (rs : List (List ResPart)) : noDupNames rs = true ↔
    ∀ (i j : Nat) (a b : List ResPart) (n : String), i < j → rs[i]? = some a → rs[j]? = some b →
      litName a = some n → litName b ≠ some n := by
  induction rs with
  | nil => simp [noDupNames]
  | cons r rs ih =>
    simp only [noDupNames, Bool.and_eq_true, ih]
    constructor
    · rintro ⟨h1, h2⟩ i j a b n hij ha hb hn
      cases j with
      | zero => omega
      | succ j =>
        cases i with
        | zero =>
          simp only [List.getElem?_cons_zero, Option.some.injEq] at ha
          subst ha
          rw [hn] at h1
          simp only [List.all_eq_true, decide_eq_true_eq] at h1
          simp only [List.getElem?_cons_succ] at hb
          exact h1 b (List.mem_of_getElem? hb)
        | succ i =>
          simp only [List.getElem?_cons_succ] at ha hb
          exact h2 i j a b n (by omega) ha hb hn
    · intro h
      constructor
      · cases hn : litName r with
        | none => rfl
        | some n =>
          simp only [List.all_eq_true, decide_eq_true_eq]
          intro b hb
          obtain ⟨j, hj⟩ := List.getElem?_of_mem hb
          exact h 0 (j + 1) r b n (by omega) rfl (by simpa using hj) hn
      · intro i j a b n hij ha hb hn
        exact h (i + 1) (j + 1) a b n (by omega) (by simpa using ha) (by simpa using hb) hn

/-- **C106.** Each resource of an accepted command has exactly one name, a string, and exactly one
priority, an integer (or of a type known only later); and no two resources have the same literal name. -/
theorem c106_resources_partial (rs : List (List ResPart)) (h : AcceptsRes rs) :
    (∀ r ∈ rs, ∃ n e, resNames r = [n] ∧ resPrios r = [e] ∧
      (n.made = some .string ∨ n.made = some .unknown) ∧ (e.made = some .integer ∨ e.made = some .unknown)) ∧
    (∀ (i j : Nat) (a b : List ResPart) (n : String), i ≠ j → rs[i]? = some a → rs[j]? = some b →
      .name (.lit n) ∈ a → .name (.lit n) ∈ b → False) := by
  obtain ⟨hc, hm⟩ := h
  simp only [checkResources, Bool.and_eq_true, List.all_eq_true] at hc
  simp only [makeResources, List.all_eq_true] at hm
  have hone : ∀ r ∈ rs, ∃ n e, resNames r = [n] ∧ resPrios r = [e] := by
    intro r hr
    have h1 := hc.1 r hr
    simp only [checkResource, Bool.and_eq_true, decide_eq_true_eq] at h1
    obtain ⟨n, hn⟩ := List.length_eq_one_iff.1 h1.1.2
    obtain ⟨e, he⟩ := List.length_eq_one_iff.1 h1.2
    exact ⟨n, e, hn, he⟩
  constructor
  · intro r hr
    obtain ⟨n, e, hn, he⟩ := hone r hr
    refine ⟨n, e, hn, he, ?_, ?_⟩
    · have := hm r hr (.name n) (resNames_mem.1 (by rw [hn]; simp))
      simp only [makeResPart, strOk] at this
      split at this
      · rename_i t ht
        simp only [Bool.or_eq_true, decide_eq_true_eq] at this
        rcases this with rfl | rfl
        · exact Or.inl ht
        · exact Or.inr ht
      · cases this
    · have := hm r hr (.priority e) (resPrios_mem.1 (by rw [he]; simp))
      simp only [makeResPart] at this
      split at this
      · cases this
      · rename_i t ht
        simp only [Bool.or_eq_true, decide_eq_true_eq] at this
        rcases this with rfl | rfl
        · exact Or.inl ht
        · exact Or.inr ht
  · intro i j a b n hij ha hb hna hnb
    have hlit : ∀ r ∈ rs, .name (.lit n) ∈ r → litName r = some n := by
      intro r hr hm'
      obtain ⟨n', e, hn, _⟩ := hone r hr
      have : (.lit n : NameEx) ∈ resNames r := resNames_mem.2 hm'
      rw [hn] at this
      simp only [List.mem_singleton] at this
      subst this
      simp [litName, hn, NameEx.literal]
    have h2 := (noDupNames_iff rs).1 hc.2
    rcases Nat.lt_or_gt_of_ne hij with h3 | h3
    · exact h2 i j a b n h3 ha hb (hlit a (List.mem_of_getElem? ha) hna) (hlit b (List.mem_of_getElem? hb) hnb)
    · exact h2 j i b a n h3 hb ha (hlit b (List.mem_of_getElem? hb) hnb) (hlit a (List.mem_of_getElem? ha) hna)

/-- **C106.** And no more is asked of a list of plain resources: name and priority, with names that
differ, are accepted. -/
theorem c106_accepts (l : List (String × VT)) (h1 : (l.map (·.1)).Nodup) (h2 : ∀ p ∈ l, p.2 = .integer) :
    AcceptsRes (l.map fun p => [.name (.lit p.1), .priority ⟨some p.2, some p.2⟩]) := by
  constructor
  · simp only [checkResources, Bool.and_eq_true, List.all_eq_true, List.mem_map]
    constructor
    · rintro r ⟨p, hp, rfl⟩
      simp [checkResource, checkResPart, strOk, NameEx.checked, numOk, h2 p hp, isNumericT, resNames, resPrios]
    · rw [noDupNames_iff]
      intro i j a b n hij ha hb hna hnb
      simp only [List.getElem?_map, Option.map_eq_some_iff] at ha hb
      obtain ⟨p, hp, rfl⟩ := ha
      obtain ⟨q, hq, rfl⟩ := hb
      simp only [litName, resNames, NameEx.literal, Option.some.injEq] at hna hnb
      have hp' : (l.map (·.1))[i]? = some n := by simp [List.getElem?_map, hp, hna]
      have hq' : (l.map (·.1))[j]? = some n := by simp [List.getElem?_map, hq, hnb]
      have hlt : i < (l.map (·.1)).length := (List.getElem?_eq_some_iff.1 hp').1
      have := (List.getElem?_inj hlt h1).1 (hp'.trans hq'.symm)
      omega
  · simp only [makeResources, List.all_eq_true, List.mem_map]
    rintro r ⟨p, hp, rfl⟩ x hx
    simp only [List.mem_cons, List.not_mem_nil, or_false] at hx
    rcases hx with rfl | rfl
    · rfl
    · simp [makeResPart, h2 p hp]

/-- **C106, where it fails.** Two upper bounds in one resource are accepted: the check for a duplicate
looks at a variable that is new for every child (`commandXmlParser.cc:59`, `109`). -/
theorem c106_two_bounds :
    AcceptsRes [[.name (.lit "r"), .priority ⟨some .integer, some .integer⟩,
      .upperBound ⟨some .real, some .real⟩, .upperBound ⟨some .real, some .real⟩]] := by
  constructor <;> decide

/-- **C106, where it fails.** A real priority is passed by the check and refused when the command is
made: the two disagree (`commandXmlParser.cc:97`, `293`). -/
theorem c106_real_priority :
    checkResources [[.name (.lit "r"), .priority ⟨some .real, some .real⟩]] = true ∧
    makeResources [[.name (.lit "r"), .priority ⟨some .real, some .real⟩]] = false := by
  decide

/-- **C104.** A state declared without a name or without a type, a command without a name, a mutex without a name, and anything that is no declaration: the declarations are refused, wherever it
stands. -/
theorem c104_malformed (ds : List Xml) (d : Xml) (hd : d ∈ ds)
    (h : d = .elem "StateDeclaration" [] ∨ (∃ n, d = .elem "StateDeclaration" [.elem "Name" [.text n]]) ∨ (∃ k r l, d = .elem "StateDeclaration" (.elem k r :: l) ∧ k ≠ "Name") ∨
      (∃ k r, (d = .elem "CommandDeclaration" [] ∨ d = .elem "CommandDeclaration" (.elem k r :: [])) ∧ k ≠ "Name") ∨
      (∃ k r l, (d = .elem "DeclareMutex" [] ∨ d = .elem "DeclareMutex" (.elem k r :: l)) ∧ k ≠ "Name") ∨
      (∃ k l, d = .elem k l ∧ k ≠ "CommandDeclaration" ∧ k ≠ "StateDeclaration" ∧ k ≠ "DeclareMutex")) :
    declare ds = none := by
  have bad : ∀ l : List Xml, d ∈ l → checkGlobals l = false := by
    intro l hl
    induction l with
    | nil => simp at hl
    | cons a l ih =>
      rcases List.mem_cons.1 hl with e | hm
      · subst e
        simp only [checkGlobals, Bool.and_eq_false_iff]
        left
        rcases h with rfl | ⟨n, rfl⟩ | ⟨k, r, l, rfl, hk⟩ | ⟨k, r, rfl | rfl, hk⟩ | ⟨k, r, l, rfl | rfl, hk⟩ | ⟨k, l, rfl, h1, h2, h3⟩ <;>
          simp_all [Xml.name, checkStateDecl, checkCommandDecl, checkMutexDecl, Xml.kids]
      · simp [checkGlobals, ih hm]
  simp [declare, bad ds hd]

example : ∃ d : Xml, d ∈ [Xml.elem "StateDeclaration" [.elem "Name" [.text "x"]]] ∧ d = .elem "StateDeclaration" [.elem "Name" [.text "x"]] := ⟨_, List.mem_singleton.2 rfl, rfl⟩

/-- **C106.** What an accepted command says of a resource's name, priority, upper bound and whether it is released is well formed, and of the right type as far as it is known when read, and again when made. -/
theorem c106_types (rs : List (List ResPart)) (h : AcceptsRes rs) (r : List ResPart) (hr : r ∈ rs) :
    (∀ e, .priority e ∈ r ∨ .upperBound e ∈ r → ∃ t, e.checked = some t ∧ (t = .integer ∨ t = .real ∨ t = .date ∨ t = .duration ∨ t = .unknown)) ∧
      (∀ e, .upperBound e ∈ r → ∃ t, e.made = some t ∧ (t = .integer ∨ t = .real ∨ t = .date ∨ t = .duration ∨ t = .unknown)) ∧
      (∀ e, .release e ∈ r → (∃ t, e.checked = some t ∧ (t = .boolean ∨ t = .unknown)) ∧ ∃ t, e.made = some t ∧ (t = .boolean ∨ t = .unknown)) ∧ .junk ∉ r := by
  obtain ⟨hc, hm⟩ := h
  simp only [checkResources, Bool.and_eq_true, List.all_eq_true, checkResource] at hc
  simp only [makeResources, List.all_eq_true] at hm
  have c := (hc.1 r hr).1.1
  have m := hm r hr
  have num : ∀ o : Option VT, numOk o = true → ∃ t, o = some t ∧ (t = .integer ∨ t = .real ∨ t = .date ∨ t = .duration ∨ t = .unknown) := by
    intro o ho
    cases o with
    | none => simp [numOk] at ho
    | some t => refine ⟨t, rfl, ?_⟩; cases t <;> simp [numOk, isNumericT] at ho ⊢
  refine ⟨fun e he => ?_, fun e he => num _ (m _ he), fun e he => ⟨?_, ?_⟩, fun he => by have := c _ he; simp [checkResPart] at this⟩
  · rcases he with he | he
    · exact num _ (c _ he)
    · exact num _ (c _ he)
  · have := c _ he
    simp only [checkResPart] at this
    split at this
    · simp at this
    · rename_i t ht; refine ⟨t, ht, ?_⟩; cases t <;> simp [compatible] at this ⊢
  · have := m _ he
    simp only [makeResPart] at this
    split at this
    · simp at this
    · rename_i t ht; exact ⟨t, ht, by simpa using this⟩

end Verif.Decl
