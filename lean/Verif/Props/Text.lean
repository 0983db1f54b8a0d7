import Verif.Text.Lemmas
import Mathlib.Data.Nat.Digits.Lemmas
/-!
Values as text: C72 (literals mean what they say), C73 (names are unambiguous), C74 (array literals and declared sizes).
-/
namespace Verif.Text

/-! ## C72 -/

/-- **C72, Integers.**  For every text: it is read as the integer `v` exactly if it is the text of `v` — blanks, a sign, a decimal, octal or hexadecimal
constant — and `v` has 32 bits; it is read as unknown exactly if it is empty or `UNKNOWN`; everything else is an error. -/
theorem c72_integer (s : List Char) :
    (∀ v, parseInteger s = .known v ↔ IntegerText s v ∧ -2 ^ 31 ≤ v ∧ v < 2 ^ 31) ∧
    (parseInteger s = .unknown ↔ s = [] ∨ s = "UNKNOWN".toList) := by
  by_cases hu : s = [] ∨ s = "UNKNOWN".toList
  · have e : parseInteger s = .unknown := by rw [parseInteger, if_pos hu]
    refine ⟨fun v => ?_, by rw [e]; exact ⟨fun _ => hu, fun _ => rfl⟩⟩
    rw [e]
    constructor
    · intro h; cases h
    · rintro ⟨h, -⟩
      exfalso
      rw [integerText_iff] at h
      obtain ⟨n, h, -⟩ := h
      rcases hu with rfl | rfl
      · exact absurd h (by rw [show readUnsigned (sign (List.dropWhile isSpace [])).2 = none by rfl]; simp)
      · exact absurd h (by rw [show readUnsigned (sign (List.dropWhile isSpace "UNKNOWN".toList)).2 = none by decide]; simp)
  · rw [parseInteger, if_neg hu, strtol_eq]
    constructor
    · intro v
      rw [integerText_iff]
      cases hr : readUnsigned (sign (s.dropWhile isSpace)).2 with
      | none => simp
      | some p =>
        obtain ⟨n, rest⟩ := p
        simp only [Option.some.injEq, Prod.mk.injEq]
        generalize hw : (if (sign (List.dropWhile isSpace s)).1 = true then -(n : Int) else n) = w
        by_cases h1 : w > 2 ^ 63 - 1
        · rw [if_pos h1]
          simp only
          constructor
          · intro h; split at h
            · cases h
            · simp at h
          · rintro ⟨⟨n', ⟨rfl, rfl⟩, rfl⟩, h2, h3⟩
            rw [hw] at h3; omega
        · rw [if_neg h1]
          by_cases h2 : w < -2 ^ 63
          · rw [if_pos h2]
            simp only
            constructor
            · intro h; split at h
              · cases h
              · simp at h
            · rintro ⟨⟨n', ⟨rfl, rfl⟩, rfl⟩, h3, h4⟩
              rw [hw] at h3; omega
          · rw [if_neg h2]
            simp only [Bool.false_eq_true, if_false]
            by_cases h3 : rest = []
            · rw [if_neg (by simpa using h3)]
              constructor
              · intro h; split at h
                · injection h with h; subst h
                  exact ⟨⟨n, ⟨rfl, h3⟩, hw.symm⟩, by omega, by omega⟩
                · cases h
              · rintro ⟨⟨n', ⟨rfl, -⟩, rfl⟩, h4, h5⟩
                rw [hw] at h4 h5 ⊢
                rw [if_pos ⟨by omega, by omega⟩]
            · rw [if_pos h3]
              constructor
              · intro h; cases h
              · rintro ⟨⟨n', ⟨-, h⟩, -⟩, -⟩; exact absurd h h3
    · constructor
      · intro h
        exfalso
        revert h
        cases readUnsigned (sign (s.dropWhile isSpace)).2 with
        | none => simp
        | some p =>
          obtain ⟨n, rest⟩ := p
          intro h
          dsimp only at h
          repeat' split at h
          all_goals first | cases h | simp at h
      · intro h; exact absurd h hu

theorem dec_num (n : Nat) (hn : n ≠ 0) : Num 10 (decimal n) n ∧ (decimal n).head? ≠ some '0' := by
  have main : ∀ (k n : Nat), n < k → n ≠ 0 → Num 10 ((Nat.digits 10 n).reverse.map Nat.digitChar) n ∧
      ((Nat.digits 10 n).reverse.map Nat.digitChar).head? ≠ some '0' := by
    have dig : ∀ d < 10, DigitIs (Nat.digitChar d) d := by
      intro d hd
      interval_cases d <;> exact .inl rfl
    have dig0 : ∀ d < 10, d ≠ 0 → Nat.digitChar d ≠ '0' := by decide
    intro k
    induction k with
    | zero => intro n h; omega
    | succ k ih =>
      intro n h hn
      rw [Nat.digits_def' (by omega) (by omega)]
      simp only [List.reverse_cons, List.map_append, List.map_cons, List.map_nil]
      by_cases h10 : n / 10 = 0
      · rw [h10]
        simp only [Nat.digits_zero, List.reverse_nil, List.map_nil, List.nil_append, List.head?_cons]
        have e : n % 10 = n := Nat.mod_eq_of_lt (by omega)
        rw [e]
        exact ⟨.one (dig n (by omega)) (by omega), by simpa using dig0 n (by omega) hn⟩
      · obtain ⟨h1, h2⟩ := ih (n / 10) (by omega) h10
        have e : n = n / 10 * 10 + n % 10 := by omega
        refine ⟨?_, ?_⟩
        · have := Num.snoc h1 (dig (n % 10) (by omega)) (by omega)
          rw [← e] at this
          exact this
        · obtain ⟨c, r, hc, -⟩ := num_head (by omega) h1
          rw [hc] at h2 ⊢
          simpa using h2
  unfold decimal
  rw [if_neg hn]
  exact main (n + 1) n (by omega) hn

/-- **C72, printed integers.**  Every integer is read back from the text it is printed as; so is every Boolean. -/
theorem c72_round_trip (i : Int) (h1 : -2 ^ 31 ≤ i) (h2 : i < 2 ^ 31) (b : Bool) :
    parseInteger (printInteger i) = .known i ∧ parseBoolean (printBoolean b) = .known b := by
  refine ⟨?_, by cases b <;> decide⟩
  rw [(c72_integer _).1]
  refine ⟨?_, h1, h2⟩
  have un : ∀ n : Nat, Unsigned (decimal n) n := by
    intro n
    by_cases hn : n = 0
    · subst hn; exact .oct (.one (.inl rfl) (by omega)) rfl
    · obtain ⟨a, b⟩ := dec_num n hn
      exact .dec a b
  unfold printInteger
  split
  · have := IntegerText.minus (blanks := []) (by simp) (un i.natAbs)
    rw [show -(i.natAbs : Int) = i by omega] at this
    exact this
  · have := IntegerText.mk (blanks := []) (by simp) (un i.natAbs)
    rw [show (i.natAbs : Int) = i by omega] at this
    exact this

/-- A text denotes one integer only. -/
theorem c72_integer_unique (s : List Char) (v w : Int) (h : IntegerText s v) (h' : IntegerText s w) : v = w := by
  rw [integerText_iff] at h h'
  obtain ⟨n, h1, rfl⟩ := h
  obtain ⟨m, h2, rfl⟩ := h'
  rw [h1] at h2
  injection h2 with h2; injection h2 with h2 _; rw [h2]

/-- Letters in either case, the rest as it is. -/
theorem upper_toUpper (c : Char) : upper c = c.toUpper := by
  unfold upper Char.toUpper
  by_cases h : 'a' ≤ c ∧ c ≤ 'z'
  · have h1 : 97 ≤ c.toNat := char_le.mp h.1
    have h2 : c.toNat ≤ 122 := char_le.mp h.2
    have h' : c.val ≥ 97 ∧ c.val ≤ 122 := ⟨UInt32.le_iff_toNat_le.mpr h1, UInt32.le_iff_toNat_le.mpr h2⟩
    rw [if_pos h]
    have : c = Char.ofNat c.toNat := (Char.ofNat_toNat c).symm
    generalize hn : c.toNat = n at *
    subst this
    clear h h' hn
    interval_cases n <;> decide
  · rw [if_neg h]
    split
    · rename_i h'
      exact absurd ⟨char_le.mpr (UInt32.le_iff_toNat_le.mp h'.1), char_le.mpr (UInt32.le_iff_toNat_le.mp h'.2)⟩ h
    · rfl

theorem sameNoCase_iff (a b : List Char) : sameNoCase a b = true ↔ a.map Char.toUpper = b.map Char.toUpper := by
  induction a generalizing b with
  | nil => cases b <;> simp [sameNoCase]
  | cons x a ih =>
    cases b with
    | nil => simp [sameNoCase]
    | cons y b =>
      rw [sameNoCase, List.map_cons, List.map_cons, List.cons.injEq]
      by_cases h : x = y
      · subst h; simp [ih]
      · rw [if_neg h, upper_toUpper, upper_toUpper]
        by_cases h' : x.toUpper = y.toUpper
        · rw [if_pos h', ih]; simp [h']
        · rw [if_neg h']; simp [h']

/-- **C72, Booleans.**  For every text: true exactly for `1` and `true` in any case, false exactly for `0` and `false` in any case, unknown exactly for `UNKNOWN`; the
rest is an error. -/
theorem c72_boolean (s : List Char) :
    (parseBoolean s = .known true ↔ s = ['1'] ∨ s.map Char.toUpper = "TRUE".toList) ∧
    (parseBoolean s = .known false ↔ s = ['0'] ∨ s.map Char.toUpper = "FALSE".toList) ∧
    (parseBoolean s = .unknown ↔ s = "UNKNOWN".toList) := by
  have lt : s.map Char.toUpper = "TRUE".toList → s.length = 4 := fun h => by
    have := congrArg List.length h; simpa using this
  have lf : s.map Char.toUpper = "FALSE".toList → s.length = 5 := fun h => by
    have := congrArg List.length h; simpa using this
  have t : sameNoCase s "true".toList = true ↔ s.map Char.toUpper = "TRUE".toList := by
    rw [sameNoCase_iff, show "true".toList.map Char.toUpper = "TRUE".toList by decide]
  have f : sameNoCase s "false".toList = true ↔ s.map Char.toUpper = "FALSE".toList := by
    rw [sameNoCase_iff, show "false".toList.map Char.toUpper = "FALSE".toList by decide]
  have l1 : ∀ c, s = [c] → s.length = 1 := by rintro c rfl; rfl
  have lu : s = "UNKNOWN".toList → s.length = 7 := by rintro rfl; rfl
  have n01 : s = ['0'] → s ≠ ['1'] := by rintro rfl; decide
  unfold parseBoolean
  by_cases h1 : s.length = 1
  · rw [if_pos h1]
    have e1 : s.map Char.toUpper ≠ "TRUE".toList := fun h => by have := lt h; omega
    have e2 : s.map Char.toUpper ≠ "FALSE".toList := fun h => by have := lf h; omega
    have e3 : s ≠ "UNKNOWN".toList := fun h => by have := lu h; omega
    by_cases h0 : s = ['0']
    · rw [if_pos h0]; simp only [Parsed.known.injEq, e1, e2, e3, or_false, reduceCtorEq]; simp [h0]
    · rw [if_neg h0]
      by_cases h1' : s = ['1']
      · rw [if_pos h1']; simp only [Parsed.known.injEq, e1, e2, e3, or_false, reduceCtorEq]; simp [h1']
      · rw [if_neg h1']; simp only [e1, e2, e3, or_false, reduceCtorEq, h0, h1']; simp
  · rw [if_neg h1]
    have e0 : s ≠ ['0'] := fun h => h1 (l1 _ h)
    have e1 : s ≠ ['1'] := fun h => h1 (l1 _ h)
    by_cases h4 : s.length = 4
    · rw [if_pos h4]
      have e2 : s.map Char.toUpper ≠ "FALSE".toList := fun h => by have := lf h; omega
      have e3 : s ≠ "UNKNOWN".toList := fun h => by have := lu h; omega
      by_cases ht : sameNoCase s "true".toList = true
      · rw [if_pos ht]; have ht := t.mp ht
        simp only [e0, e1, e2, e3, ht, or_false, false_or, reduceCtorEq, Parsed.known.injEq]; simp
      · rw [if_neg ht]; have ht : s.map Char.toUpper ≠ "TRUE".toList := fun h => ht (t.mpr h)
        simp only [e0, e1, e2, e3, ht, or_false, reduceCtorEq]; simp only [and_self]
    · rw [if_neg h4]
      have e2 : s.map Char.toUpper ≠ "TRUE".toList := fun h => h4 (lt h)
      by_cases h5 : s.length = 5
      · rw [if_pos h5]
        have e3 : s ≠ "UNKNOWN".toList := fun h => by have := lu h; omega
        by_cases hf : sameNoCase s "false".toList = true
        · rw [if_pos hf]; have hf := f.mp hf
          simp only [e0, e1, e2, e3, hf, or_false, false_or, reduceCtorEq, Parsed.known.injEq]; simp
        · rw [if_neg hf]; have hf : s.map Char.toUpper ≠ "FALSE".toList := fun h => hf (f.mpr h)
          simp only [e0, e1, e2, e3, hf, or_false, reduceCtorEq]; simp only [and_self]
      · rw [if_neg h5]
        have e4 : s.map Char.toUpper ≠ "FALSE".toList := fun h => h5 (lf h)
        by_cases h7 : s.length = 7
        · rw [if_pos h7]
          by_cases hu : s = "UNKNOWN".toList
          · rw [if_pos hu]; simp only [e0, e1, e2, e4, or_false, reduceCtorEq, true_iff]; simp [hu]
          · rw [if_neg hu]; simp only [e0, e1, e2, e4, or_false, reduceCtorEq, hu]; simp
        · rw [if_neg h7]
          have e3 : s ≠ "UNKNOWN".toList := fun h => h7 (lu h)
          simp only [e0, e1, e2, e3, e4, or_false, reduceCtorEq]; simp

/-- Texts of all the kinds, and the one that surprises: a leading zero makes a literal octal, so `010` is eight and `08` is an error. -/
theorem c72_example : parseInteger " -2147483648".toList = .known (-2147483648) ∧ parseInteger "2147483648".toList = .error ∧
    parseInteger "0x1F".toList = .known 31 ∧ parseInteger "010".toList = .known 8 ∧ parseInteger "08".toList = .error ∧
    parseInteger "12 ".toList = .error ∧ parseBoolean "tRue".toList = .known true ∧ parseBoolean "unknown".toList = .error := by
  decide

/-! ## C73 -/

theorem searchName_iff {α : Type} [DecidableEq α] (dflt : α) : ∀ (t : List (α × String)), (t.map Prod.snd).Nodup → (t.map Prod.fst).Nodup →
    dflt ∉ t.map Prod.fst → ∀ (s : String) (a : α), a ≠ dflt → (searchName dflt t s = a ↔ (a, s) ∈ t) := by
  intro t
  induction t with
  | nil => intro _ _ _ s a ha; simp [searchName, Ne.symm ha]
  | cons p t ih =>
    obtain ⟨b, n⟩ := p
    intro hn hf hd s a ha
    simp only [List.map_cons, List.nodup_cons, List.mem_cons, not_or] at hn hf hd
    rw [searchName]
    by_cases h : n = s
    · subst h
      rw [if_pos rfl]
      simp only [List.mem_cons, Prod.mk.injEq, and_true]
      constructor
      · rintro rfl; exact .inl rfl
      · rintro (rfl | h)
        · rfl
        · exact absurd (List.mem_map.mpr ⟨_, h, rfl⟩) hn.1
    · rw [if_neg h, ih hn.2 hf.2 hd.2 s a ha]
      simp only [List.mem_cons, Prod.mk.injEq]
      constructor
      · exact .inr
      · rintro (⟨-, rfl⟩ | h')
        · exact absurd rfl h
        · exact h'

/-- **C73, enumerations.**  For every text: it is read as a node state, outcome, failure type or command handle exactly if it is the name printed for it; so the names are
distinct, and a text that is no name is read as none. -/
theorem c73_names (s : String) :
    (∀ x, x ≠ NState.none → (parseState s = x ↔ s = stateName x)) ∧
    (∀ x, x ≠ Outcome.none → (parseOutcome s = x ↔ s = outcomeName x)) ∧
    (∀ x, x ≠ Failure.none → (parseFailure s = x ↔ s = failureName x)) ∧
    (∀ x, x ≠ Handle.none → (parseHandle s = x ↔ s = handleName x)) := by
  refine ⟨fun x hx => ?_, fun x hx => ?_, fun x hx => ?_, fun x hx => ?_⟩
  · rw [parseState, searchName_iff _ _ (by decide) (by decide) (by decide) s x hx]
    cases x <;> simp [stateTable, stateName, nameOf] at hx ⊢
  · rw [parseOutcome, searchName_iff _ _ (by decide) (by decide) (by decide) s x hx]
    cases x <;> simp [outcomeTable, outcomeName, nameOf] at hx ⊢
  · rw [parseFailure, searchName_iff _ _ (by decide) (by decide) (by decide) s x hx]
    cases x <;> simp [failureTable, failureName, nameOf] at hx ⊢
  · rw [parseHandle, searchName_iff _ _ (by decide) (by decide) (by decide) s x hx]
    cases x <;> simp [handleTable, handleName, nameOf] at hx ⊢

/-- **C73 (partial), constants in plans.**  A plan can write every state, outcome and failure type, by its name; of the command handles it can write those of
the list (see `c73_handles_not_writable`). -/
theorem c73_constants_partial (s : String) :
    (∀ x, stateConstant s = some x ↔ x ≠ .none ∧ s = stateName x) ∧
    (∀ x, outcomeConstant s = some x ↔ x ≠ .none ∧ s = outcomeName x) ∧
    (∀ x, failureConstant s = some x ↔ x ≠ .none ∧ s = failureName x) ∧
    (∀ x, handleConstant s = some x ↔ x ∈ [Handle.sent, .accepted, .rcvd, .failed, .denied, .success] ∧ s = handleName x) := by
  obtain ⟨h1, h2, h3, h4⟩ := c73_names s
  refine ⟨fun x => ?_, fun x => ?_, fun x => ?_, fun x => ?_⟩
  · by_cases hx : x = .none
    · subst hx
      unfold stateConstant
      cases parseState s <;> simp
    · rw [← h1 x hx]
      unfold stateConstant
      cases hp : parseState s <;> cases x <;> simp at hx ⊢
  · by_cases hx : x = .none
    · subst hx
      unfold outcomeConstant
      cases parseOutcome s <;> simp
    · rw [← h2 x hx]
      unfold outcomeConstant
      cases hp : parseOutcome s <;> cases x <;> simp at hx ⊢
  · by_cases hx : x = .none
    · subst hx
      unfold failureConstant
      cases parseFailure s <;> simp
    · rw [← h3 x hx]
      unfold failureConstant
      cases hp : parseFailure s <;> cases x <;> simp at hx ⊢
  · by_cases hx : x = .none
    · subst hx
      unfold handleConstant
      cases parseHandle s <;> simp
    · rw [← h4 x hx]
      unfold handleConstant
      cases hp : parseHandle s <;> cases x <;> simp at hx ⊢

/-- **C73 is false for three command handles**: they can be reported, and are read by their names, but a plan cannot compare a handle with them (`ConstantFactory.cc:391-404`). -/
theorem c73_handles_not_writable :
    ∀ x ∈ [Handle.aborted, .abortFailed, .interfaceError], parseHandle (handleName x) = x ∧ ∀ s, handleConstant s ≠ some x := by
  intro x hx
  simp only [List.mem_cons, List.not_mem_nil, or_false] at hx
  refine ⟨by rcases hx with rfl | rfl | rfl <;> decide, fun s h => ?_⟩
  have := ((c73_constants_partial s).2.2.2 x).mp h
  rcases hx with rfl | rfl | rfl <;> simp at this

/-- **C73, types.**  For every text: it is read as a type exactly if it is the name of that type (`Array` names the type of any array). -/
theorem c73_types (s : String) (t : VT) (ht : t ≠ .unknown) :
    parseType s = t ↔ s = (if t = .array then "Array" else t.name) := by
  constructor
  · intro h
    subst h
    unfold parseType at ht ⊢
    split at ht
    all_goals (repeat' split at ht)
    all_goals first | exact absurd rfl ht | skip
    all_goals first
      | (rename_i h; obtain ⟨-, rfl⟩ := h; decide)
      | simp_all [VT.name]
  · rintro rfl
    cases t <;> first | exact absurd rfl ht | decide

/-! ## C74 -/

theorem strncmpEq_iff (a b : List Char) (n : Nat) : strncmpEq a b n = true ↔ a.take n = b.take n := by
  induction n generalizing a b with
  | zero => simp [strncmpEq]
  | succ n ih =>
    cases a <;> cases b <;> simp [strncmpEq, ih]

theorem set_foldl (l : List Nat) : ∀ (k : List Bool) (i : Nat),
    (l.foldl (fun k i => k.set i false) k)[i]? = if i ∈ l then (k[i]?).map fun _ => false else k[i]? := by
  induction l with
  | nil => intro k i; simp
  | cons j l ih =>
    intro k i
    rw [List.foldl_cons, ih]
    by_cases hij : j = i
    · subst hij
      simp only [List.mem_cons, true_or, if_true]
      by_cases hk : j < k.length
      · rw [List.getElem?_set_self hk]
        simp [List.getElem?_eq_getElem hk]
      · rw [List.getElem?_eq_none (by simpa using hk), List.getElem?_eq_none (by simpa using hk)]; simp
    · rw [List.getElem?_set_ne hij]
      simp [Ne.symm hij]

theorem collect_spec {α : Type} (dflt : α) (parse : List Char → Parsed α) : ∀ (es : List El) (i : Nat),
    (∀ e ∈ es, parse e.text ≠ .error) → ∃ vs us, collect dflt parse i es = some (vs, us) ∧ vs.length = es.length ∧
      (∀ j (h : j < es.length), (∀ v, parse (es[j]).text = .known v → vs[j]? = some v) ∧ (i + j ∈ us ↔ parse (es[j]).text = .unknown)) ∧
      (∀ u ∈ us, i ≤ u) := by
  intro es
  induction es with
  | nil => intro i _; exact ⟨[], [], rfl, rfl, fun j h => absurd h (by simp), by simp⟩
  | cons e es ih =>
    intro i hok
    obtain ⟨vs, us, h1, h2, h3, h4⟩ := ih (i + 1) (fun e he => hok e (List.mem_cons_of_mem _ he))
    have hi : i ∉ us := fun h => by have := h4 i h; omega
    cases hp : parse e.text with
    | error => exact absurd hp (hok e (by simp))
    | known v =>
      refine ⟨v :: vs, us, by simp [collect, hp, h1], by simp [h2], ?_, fun u hu => by have := h4 u hu; omega⟩
      intro j hj
      cases j with
      | zero =>
        refine ⟨fun w hw => ?_, by simp [hi, hp]⟩
        simp only [List.getElem_cons_zero] at hw
        rw [hp] at hw; injection hw with hw; simp [hw]
      | succ j =>
        have := h3 j (by simpa using hj)
        refine ⟨fun w hw => by simpa using this.1 w (by simpa using hw), ?_⟩
        rw [show i + (j + 1) = i + 1 + j by omega]
        simpa using this.2
    | unknown =>
      refine ⟨dflt :: vs, i :: us, by simp [collect, hp, h1], by simp [h2], ?_, ?_⟩
      · intro j hj
        cases j with
        | zero =>
          refine ⟨fun w hw => ?_, by simp [hp]⟩
          simp only [List.getElem_cons_zero] at hw
          rw [hp] at hw; cases hw
        | succ j =>
          have := h3 j (by simpa using hj)
          refine ⟨fun w hw => by simpa using this.1 w (by simpa using hw), ?_⟩
          rw [show i + (j + 1) = i + 1 + j by omega, List.mem_cons]
          constructor
          · rintro (h | h)
            · omega
            · simpa using this.2.mp h
          · intro h; exact .inr (this.2.mpr (by simpa using h))
      · intro u hu
        rcases List.mem_cons.mp hu with rfl | hu
        · omega
        · have := h4 u hu; omega

theorem checkElems_iff {α : Type} (parse : List Char → Parsed α) (ty : List Char) (es : List El) :
    checkElems parse ty es = true ↔ ∀ e ∈ es, (∃ p, e.tag = p ++ "Value".toList ∧ p <+: ty) ∧ e.text ≠ [] ∧ parse e.text ≠ .error := by
  induction es with
  | nil => simp [checkElems]
  | cons e es ih =>
    rw [checkElems]
    simp only [Bool.and_eq_true, decide_eq_true_eq, ih, List.forall_mem_cons]
    have ht : endsInValue e.tag = true ∧ strncmpEq e.tag ty (e.tag.length - 5) = true ↔ ∃ p, e.tag = p ++ "Value".toList ∧ p <+: ty := by
      rw [endsInValue, strncmpEq_iff]
      simp only [Bool.and_eq_true, decide_eq_true_eq]
      constructor
      · rintro ⟨⟨h1, h2⟩, h3⟩
        refine ⟨e.tag.take (e.tag.length - 5), ?_, ?_⟩
        · rw [← h2, List.take_append_drop]
        · rw [h3]; exact List.take_prefix _ _
      · rintro ⟨p, h1, h2⟩
        obtain ⟨q, rfl⟩ := h2
        rw [h1]
        have hl : (p ++ "Value".toList).length - 5 = p.length := by simp
        rw [hl, List.take_left, List.take_left, List.drop_left]
        exact ⟨⟨by simp, rfl⟩, rfl⟩
    rw [ht]
    constructor
    · rintro ⟨⟨⟨h1, h2⟩, h3⟩, h4⟩
      exact ⟨⟨h1, h2, fun h => by rw [h] at h3; cases h3⟩, h4⟩
    · rintro ⟨⟨h1, h2, h3⟩, h4⟩
      refine ⟨⟨⟨h1, h2⟩, ?_⟩, h4⟩
      revert h3
      cases parse e.text <;> simp

/-- **C74, array literals.**  A literal that was accepted makes an array with as many elements, each with the value its text is read as, or unknown; for every
element type and any number of elements.  Reading never fails after acceptance. -/
theorem c74_literal {α : Type} (dflt : α) (parse : List Char → Parsed α) (ty : List Char) (es : List El) (h : checkElems parse ty es = true) :
    ∃ a, arrayLiteral dflt parse es = some a ∧ a.vals.length = es.length ∧ a.known.length = es.length ∧
      ∀ i (hi : i < es.length), parse (es[i]).text = (match a.get i with | some v => .known v | none => .unknown) := by
  have hok : ∀ e ∈ es, parse e.text ≠ .error := fun e he => ((checkElems_iff parse ty es).mp h e he).2.2
  obtain ⟨vs, us, h1, h2, h3, -⟩ := collect_spec dflt parse es 0 hok
  refine ⟨_, by rw [arrayLiteral, h1, Option.map_some], h2, ?_, ?_⟩
  · have : ∀ (l : List Nat) (k : List Bool), (l.foldl (fun k i => k.set i false) k).length = k.length := by
      intro l
      induction l with
      | nil => intro k; rfl
      | cons j l ih => intro k; rw [List.foldl_cons, ih]; simp
    simp [this, h2]
  · intro i hi
    obtain ⟨hv, hu⟩ := h3 i hi
    rw [Nat.zero_add] at hu
    simp only [Arr.get, set_foldl]
    rw [List.getElem?_replicate, if_pos (show i < vs.length by omega)]
    cases hp : parse (es[i]).text with
    | error => exact absurd hp (hok _ (List.getElem_mem hi))
    | unknown => simp [hu.mpr hp]
    | known v =>
      have hm : i ∉ us := fun hm => by rw [hu.mp hm] at hp; cases hp
      simp [hm, hv v hp]

/-- String arrays: every element is known and is its text. -/
theorem c74_string_literal (es : List El) (i : Nat) (hi : i < es.length) :
    (stringArrayLiteral es).get i = some (es[i]).text ∧ (stringArrayLiteral es).vals.length = es.length := by
  simp [stringArrayLiteral, Arr.get, hi]

theorem c74_literal_example : checkElems parseInteger "Integer".toList [⟨"IntegerValue".toList, "3".toList⟩, ⟨"IntegerValue".toList, "UNKNOWN".toList⟩] = true ∧
    arrayLiteral 0 parseInteger [⟨"IntegerValue".toList, "3".toList⟩, ⟨"IntegerValue".toList, "UNKNOWN".toList⟩] = some ⟨[3, 0], [true, false]⟩ := by decide

/-- The tag is compared only as far as it is long: `<Value>` and `<IntValue>` pass in an Integer array (`ArrayLiteralFactory.cc:55-57`). -/
theorem c74_short_tag : checkElems parseInteger "Integer".toList [⟨"Value".toList, "3".toList⟩, ⟨"IntValue".toList, "3".toList⟩] = true := by decide

theorem strtol10_plain {b : List Char} {n : Nat} (hn : Num 10 b n) (h63 : (n : Int) < 2 ^ 63) : strtol 10 b = some ((n : Int), false, []) := by
  obtain ⟨c, r, rfl, hc⟩ := num_head (by omega) hn
  obtain ⟨h1, h2, h3⟩ := digit_not_special hc
  have e1 : (c :: r).dropWhile isSpace = c :: r := by rw [List.dropWhile_cons_of_neg]; simp [h1]
  have e2 : sign (c :: r) = (false, c :: r) := by
    unfold sign
    split
    · rename_i heq; injection heq with h _; exact absurd h h3
    · rename_i heq; injection heq with h _; exact absurd h h2
    · rfl
  have e3 : numBase 10 (c :: r) = (10, c :: r) := rfl
  unfold strtol
  rw [e1, e2]; simp only
  rw [e3]; simp only
  rw [if_pos hc, (scan_full (by omega) (by simp)).mpr hn]
  simp only [Bool.false_eq_true, if_false]
  rw [if_neg (by omega), if_neg (by omega)]

/-- **C74 (partial), declared sizes.**  An array declared with a size written in decimal without leading zeros (or `0`) has exactly this capacity, and a literal is accepted as its
initial value exactly if it fits. -/
theorem c74_size_partial (sz : List Char) (m : Nat) (hn : Num 10 sz m) (h0 : sz.head? = some '0' → sz = ['0']) (hm : m < 2 ^ 31) (n : Nat) :
    allocatedSize sz = m ∧ (checkArrayDecl (some sz) (some n) = true ↔ n ≤ m) := by
  constructor
  · rw [allocatedSize, strtol10_plain hn (by omega)]
    simp only [toInt32]; omega
  · have hu : Unsigned sz m := by
      by_cases h : sz.head? = some '0'
      · have hz := h0 h
        subst hz
        have := ((num_iff 10 (by omega) _ _).mp hn).2.2
        rw [show List.foldl (push 10) 0 ['0'] = 0 by decide] at this
        subst this
        exact .oct (.one (.inl rfl) (by omega)) rfl
      · exact .dec hn h
    have hp : parseInteger sz = .known (m : Int) := by
      rw [(c72_integer sz).1]
      exact ⟨IntegerText.mk (blanks := []) (by simp) hu, by omega, by omega⟩
    obtain ⟨c, r, rfl, -⟩ := num_head (by omega) hn
    simp [checkArrayDecl, hp]

theorem c74_size_example : Num 10 "12".toList 12 := by
  have : Num 10 ["1".toList.head!] 1 := .one (.inl rfl) (by omega)
  exact Num.snoc (ds := ['1']) (n := 1) (c := '2') (d := 2) this (.inl rfl) (by omega)

/-- **C74 is false otherwise**: the size is checked as octal or hexadecimal but allocated as decimal (`ArrayVariableFactory.cc:77, 189`).  A size `0x10` is accepted with a literal of 16
elements, and the variable gets size 0; `010` is checked as 8 and allocated as 10. -/
theorem c74_size_bases : checkArrayDecl (some "0x10".toList) (some 16) = true ∧ allocatedSize "0x10".toList = 0 ∧
    checkArrayDecl (some "010".toList) (some 9) = false ∧ allocatedSize "010".toList = 10 := by decide

/-- The capacity is that of a 32 bit number: what was written, modulo 2^32. -/
theorem c74_capacity_wraps (v : Int) : (∃ k : Int, toInt32 v = v + k * 2 ^ 32) ∧ -2 ^ 31 ≤ toInt32 v ∧ toInt32 v < 2 ^ 31 := by
  refine ⟨⟨-((v + 2 ^ 31) / 2 ^ 32), ?_⟩, ?_, ?_⟩ <;> simp only [toInt32] <;> omega

end Verif.Text
