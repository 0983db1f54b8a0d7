import Verif.Script.ValueSpec
import Verif.Text.Lemmas
import Verif.Props.Text
/-
C128: the values in a script of TestExec.
-/
set_option autoImplicit false
namespace Verif.Script
open Verif.Text

theorem digit10_iff (c : Char) : isDigit 10 c = true ↔ c ∈ "0123456789".toList := by
  constructor
  · intro h
    unfold isDigit at h
    cases hv : digitVal c with
    | none => rw [hv] at h; cases h
    | some d =>
      rw [hv] at h
      have hd : d < 10 := by simpa using h
      rcases (digitVal_iff c d (by omega)).mp hv with h | h
      · have : "0123456789".toList[d]? = some c := by
          rw [← h]
          have : d = 0 ∨ d = 1 ∨ d = 2 ∨ d = 3 ∨ d = 4 ∨ d = 5 ∨ d = 6 ∨ d = 7 ∨ d = 8 ∨ d = 9 := by omega
          rcases this with rfl | rfl | rfl | rfl | rfl | rfl | rfl | rfl | rfl | rfl <;> rfl
        exact List.mem_of_getElem? this
      · have : "0123456789".toList[d]? = some c := by
          rw [← h]
          have : d = 0 ∨ d = 1 ∨ d = 2 ∨ d = 3 ∨ d = 4 ∨ d = 5 ∨ d = 6 ∨ d = 7 ∨ d = 8 ∨ d = 9 := by omega
          rcases this with rfl | rfl | rfl | rfl | rfl | rfl | rfl | rfl | rfl | rfl <;> rfl
        exact List.mem_of_getElem? this
  · intro h
    simp only [String.reduceToList, List.mem_cons, List.not_mem_nil, or_false] at h
    rcases h with rfl | rfl | rfl | rfl | rfl | rfl | rfl | rfl | rfl | rfl <;> rfl

theorem blank_iff (s : List Char) : Blank s ↔ s.dropWhile isSpace = [] := by
  constructor
  · intro h
    exact dropWhile_all fun c hc => (isSpace_iff c).mpr (h c hc)
  · intro h c hc
    exact (isSpace_iff c).mp (all_of_dropWhile h c hc)

/-- A sign is no digit and no blank. -/
theorem sign_not (c : Char) (h : c = '+' ∨ c = '-') : isSpace c = false ∧ isDigit 10 c = false := by
  rcases h with rfl | rfl <;> exact ⟨rfl, rfl⟩

theorem mem_takeWhile {α : Type} {p : α → Bool} {a : α} {l : List α} (h : a ∈ l.takeWhile p) : p a = true := by
  induction l with
  | nil => simp at h
  | cons b l ih =>
    by_cases hb : p b = true
    · rw [List.takeWhile_cons_of_pos hb, List.mem_cons] at h
      rcases h with rfl | h
      · exact hb
      · exact ih h
    · rw [List.takeWhile_cons_of_neg hb] at h; simp at h

theorem scan_num {ds rest : List Char} {n : Nat} (hn : Num 10 ds n) (hr : ∀ c ∈ rest.head?, c ∉ "0123456789".toList) :
    scanDigits 10 (ds ++ rest) 0 = (n, rest) := by
  obtain ⟨-, hd, hv⟩ := (num_iff 10 (by omega) ds n).mp hn
  rw [scanDigits_spec, List.takeWhile_append_of_pos hd, List.dropWhile_append_of_pos hd]
  cases rest with
  | nil => simp [hv]
  | cons c r =>
    have : isDigit 10 c = false := by
      cases h : isDigit 10 c with
      | false => rfl
      | true => exact absurd ((digit10_iff c).mp h) (hr c (by simp))
    rw [List.takeWhile_cons_of_neg (by simp [this]), List.dropWhile_cons_of_neg (by simp [this])]
    simp [hv]

theorem sign_digit {c : Char} (r : List Char) (h : isDigit 10 c = true) : sign (c :: r) = (false, c :: r) := by
  obtain ⟨-, h2, h3⟩ := digit_not_special h
  unfold sign
  split
  · rename_i heq; injection heq with h _; exact absurd h h3
  · rename_i heq; injection heq with h _; exact absurd h h2
  · rfl

/-- What `strtol` says of a text that begins with a number. -/
theorem strtol_begins {s : List Char} {i : Int} (h : Begins s i) :
    s.dropWhile isSpace ≠ [] ∧ ∃ e r, strtol 10 s = some (if i > 2 ^ 63 - 1 then 2 ^ 63 - 1 else if i < -2 ^ 63 then -2 ^ 63 else i, e, r) := by
  obtain ⟨bl, ds, rest, n, hb, hn, hr, h⟩ := h
  have hb' : ∀ c ∈ bl, isSpace c = true := fun c hc => (isSpace_iff c).mpr (hb c hc)
  obtain ⟨c, r, rfl, hc⟩ := num_head (by omega) hn
  have hs := scan_num hn hr
  rcases h with ⟨rfl, rfl⟩ | ⟨rfl, rfl⟩ | ⟨rfl, rfl⟩
  · have e1 : (bl ++ c :: r ++ rest).dropWhile isSpace = c :: (r ++ rest) := by
      rw [List.append_assoc, List.dropWhile_append_of_pos hb', List.cons_append, List.dropWhile_cons_of_neg]
      simp [(digit_not_special hc).1]
    refine ⟨by rw [e1]; simp, ?_⟩
    unfold strtol
    rw [e1, sign_digit _ hc]
    simp only [numBase, if_neg (show ¬ (10 : Nat) = 0 by omega), if_pos hc, List.cons_append] at hs ⊢
    rw [hs]
    simp only [Bool.false_eq_true, if_false]
    split
    · exact ⟨_, _, rfl⟩
    · split <;> exact ⟨_, _, rfl⟩
  · have e1 : (bl ++ '+' :: c :: r ++ rest).dropWhile isSpace = '+' :: c :: (r ++ rest) := by
      rw [List.append_assoc, List.dropWhile_append_of_pos hb', List.cons_append, List.dropWhile_cons_of_neg (by decide)]
      rfl
    refine ⟨by rw [e1]; simp, ?_⟩
    unfold strtol
    rw [e1]
    simp only [sign, numBase, if_neg (show ¬ (10 : Nat) = 0 by omega), if_pos hc, List.cons_append] at hs ⊢
    rw [hs]
    simp only [Bool.false_eq_true, if_false]
    split
    · exact ⟨_, _, rfl⟩
    · split <;> exact ⟨_, _, rfl⟩
  · have e1 : (bl ++ '-' :: c :: r ++ rest).dropWhile isSpace = '-' :: c :: (r ++ rest) := by
      rw [List.append_assoc, List.dropWhile_append_of_pos hb', List.cons_append, List.dropWhile_cons_of_neg (by decide)]
      rfl
    refine ⟨by rw [e1]; simp, ?_⟩
    unfold strtol
    rw [e1]
    simp only [sign, numBase, if_neg (show ¬ (10 : Nat) = 0 by omega), if_pos hc, List.cons_append] at hs ⊢
    rw [hs]
    simp only [if_true]
    split
    · exact ⟨_, _, rfl⟩
    · split <;> exact ⟨_, _, rfl⟩

/-- A text that `strtol` makes something of begins with a number. -/
theorem begins_of_strtol {s : List Char} {x : Int × Bool × List Char} (h : strtol 10 s = some x) : ∃ i, Begins s i := by
  have split : s = s.takeWhile isSpace ++ s.dropWhile isSpace := (List.takeWhile_append_dropWhile).symm
  have hb : Blank (s.takeWhile isSpace) := fun c hc => (isSpace_iff c).mp (mem_takeWhile hc)
  generalize s.takeWhile isSpace = bl at split hb
  have body : ∀ t : List Char, (∃ c r, t = c :: r ∧ isDigit 10 c = true) →
      ∃ ds rest n, t = ds ++ rest ∧ Num 10 ds n ∧ ∀ c ∈ rest.head?, c ∉ "0123456789".toList := by
    rintro t ⟨c, r, rfl, hc⟩
    refine ⟨(c :: r).takeWhile (isDigit 10), (c :: r).dropWhile (isDigit 10), _, (List.takeWhile_append_dropWhile).symm,
      (num_iff 10 (by omega) _ _).mpr ⟨?_, fun c hc => mem_takeWhile hc, rfl⟩, ?_⟩
    · rw [List.takeWhile_cons_of_pos hc]; simp
    · intro d hd hm
      have := List.head?_dropWhile_not (isDigit 10) (c :: r)
      rw [Option.mem_def.mp hd] at this
      simp only [(digit10_iff d).mpr hm, Bool.true_eq_false] at this
  unfold strtol at h
  generalize hd : s.dropWhile isSpace = t at h split
  have key : ∀ (neg : Bool) (u : List Char), sign t = (neg, u) → ∃ c r, u = c :: r ∧ isDigit 10 c = true := by
    intro neg u hu
    rw [hu] at h
    simp only [numBase, if_neg (show ¬ (10 : Nat) = 0 by omega)] at h
    cases u with
    | nil => cases h
    | cons c r =>
      simp only at h
      split at h
      · rename_i hc; exact ⟨c, r, rfl, hc⟩
      · cases h
  match t, split, key with
  | '-' :: r, split, key =>
    obtain ⟨ds, rest, n, rfl, hn, hr⟩ := body r (key true r rfl)
    exact ⟨-n, bl, ds, rest, n, hb, hn, hr, .inr (.inr ⟨by rw [split]; simp, rfl⟩)⟩
  | '+' :: r, split, key =>
    obtain ⟨ds, rest, n, rfl, hn, hr⟩ := body r (key false r rfl)
    exact ⟨n, bl, ds, rest, n, hb, hn, hr, .inr (.inl ⟨by rw [split]; simp, rfl⟩)⟩
  | [], split, key => obtain ⟨c, r, h, -⟩ := key false [] rfl; cases h
  | c :: r, split, key =>
    by_cases h1 : c = '-'
    · subst h1
      obtain ⟨ds, rest, n, rfl, hn, hr⟩ := body r (key true r rfl)
      exact ⟨-n, bl, ds, rest, n, hb, hn, hr, .inr (.inr ⟨by rw [split]; simp, rfl⟩)⟩
    · by_cases h2 : c = '+'
      · subst h2
        obtain ⟨ds, rest, n, rfl, hn, hr⟩ := body r (key false r rfl)
        exact ⟨n, bl, ds, rest, n, hb, hn, hr, .inr (.inl ⟨by rw [split]; simp, rfl⟩)⟩
      · have : sign (c :: r) = (false, c :: r) := by
          unfold sign
          split
          · rename_i heq; injection heq with h _; exact absurd h h1
          · rename_i heq; injection heq with h _; exact absurd h h2
          · rfl
        obtain ⟨ds, rest, n, he, hn, hr⟩ := body _ (key false _ this)
        exact ⟨n, bl, ds, rest, n, hb, hn, hr, .inl ⟨by rw [split, he]; simp, rfl⟩⟩

theorem strtol_none {s : List Char} (h : ¬ ∃ i, Begins s i) : strtol 10 s = none := by
  cases hs : strtol 10 s with
  | none => rfl
  | some x => exact absurd (begins_of_strtol hs) h

/-- The integer read. -/
theorem streamInt_begins {s : List Char} {i : Int} (h : Begins s i) : streamInt s = .int (near i) := by
  obtain ⟨h1, e, r, h2⟩ := strtol_begins h
  unfold streamInt
  rw [if_neg h1, h2]
  simp only [near]
  congr 1
  split <;> split <;> (try split) <;> omega

/-- The Boolean read. -/
theorem streamBool_begins {s : List Char} {i : Int} (h : Begins s i) : streamBool s = .bool (decide (i ≠ 0)) := by
  obtain ⟨h1, e, r, h2⟩ := strtol_begins h
  unfold streamBool
  rw [if_neg h1, h2]
  simp only
  congr 1
  by_cases hi : i = 0
  · subst hi; rfl
  · have : (if i > 2 ^ 63 - 1 then 2 ^ 63 - 1 else if i < -2 ^ 63 then -2 ^ 63 else i) ≠ 0 := by
      split <;> (try split) <;> omega
    rw [decide_eq_true this, decide_eq_true hi]

theorem streamInt_no {s : List Char} (h : ¬ ∃ i, Begins s i) (hb : ¬ Blank s) : streamInt s = .int 0 := by
  unfold streamInt
  rw [if_neg (fun e => hb ((blank_iff s).mpr e)), strtol_none h]

theorem streamBool_no {s : List Char} (h : ¬ ∃ i, Begins s i) (hb : ¬ Blank s) : streamBool s = .bool false := by
  unfold streamBool
  rw [if_neg (fun e => hb ((blank_iff s).mpr e)), strtol_none h]

theorem begins_not_unknown {s : List Char} {i : Int} (h : Begins s i) (w : List Char)
    (hw : ∀ c ∈ w.head?, isSpace (upper c) = false ∧ isDigit 10 (upper c) = false ∧ upper c ≠ '+' ∧ upper c ≠ '-') : sameNoCase s w = false := by
  cases hs : sameNoCase s w with
  | false => rfl
  | true =>
    exfalso
    have hd : ∀ c, c ∈ "0123456789".toList → upper c = c := by
      intro c hc
      simp only [String.reduceToList, List.mem_cons, List.not_mem_nil, or_false] at hc
      rcases hc with rfl | rfl | rfl | rfl | rfl | rfl | rfl | rfl | rfl | rfl <;> rfl
    have hsp : ∀ c, c ∈ [' ', '\t', '\n', '\x0b', '\x0c', '\r'] → upper c = c := by
      intro c hc
      simp only [List.mem_cons, List.not_mem_nil, or_false] at hc
      rcases hc with rfl | rfl | rfl | rfl | rfl | rfl <;> rfl
    obtain ⟨bl, ds, rest, n, hb, hn, -, h⟩ := h
    obtain ⟨c, r, rfl, hc⟩ := num_head (by omega) hn
    have head : ∃ d t, s = d :: t ∧ upper d = d ∧ (isSpace d = true ∨ isDigit 10 d = true ∨ d = '+' ∨ d = '-') := by
      cases bl with
      | cons b bl =>
        have := hb b (by simp)
        rcases h with ⟨rfl, -⟩ | ⟨rfl, -⟩ | ⟨rfl, -⟩ <;> exact ⟨b, _, rfl, hsp b this, .inl ((isSpace_iff b).mpr this)⟩
      | nil =>
        rcases h with ⟨rfl, -⟩ | ⟨rfl, -⟩ | ⟨rfl, -⟩
        · exact ⟨c, _, rfl, hd c ((digit10_iff c).mp hc), .inr (.inl hc)⟩
        · exact ⟨'+', _, rfl, rfl, .inr (.inr (.inl rfl))⟩
        · exact ⟨'-', _, rfl, rfl, .inr (.inr (.inr rfl))⟩
    obtain ⟨d, t, rfl, hu, hk⟩ := head
    cases w with
    | nil => cases hs
    | cons e w =>
      obtain ⟨k1, k2, k3, k4⟩ := hw e (by simp)
      have : upper d = upper e := by
        unfold sameNoCase at hs
        split at hs
        · rename_i he; rw [he]
        · split at hs
          · assumption
          · cases hs
      rw [hu] at this
      rw [← this] at k1 k2 k3 k4
      rcases hk with hk | hk | hk | hk
      · rw [k1] at hk; cases hk
      · rw [k2] at hk; cases hk
      · exact k3 hk
      · exact k4 hk

theorem one_int {s : List Char} {i : Int} (h : Begins s i) (type : String) (ht : type = "int" ∨ type = "int-array") : parseOneValue type s = some (.int (near i)) := by
  have h1 : sameNoCase s "Plexil_Unknown".toList = false := begins_not_unknown h _ (by
    intro c hc
    obtain rfl : 'P' = c := by simpa using hc
    decide)
  unfold parseOneValue
  rw [h1]
  rcases ht with rfl | rfl
  · exact congrArg some (streamInt_begins h)
  · exact congrArg some (streamInt_begins h)

/-- The elements up to the first with the tag do not matter. -/
theorem tagged_first (tag : String) (pre : List XEl) (e : XEl) (post : List XEl) (hp : ∀ x ∈ pre, x.tag ≠ tag) (he : e.tag = tag) :
    ((pre ++ e :: post).dropWhile fun e => decide (e.tag ≠ tag)) = e :: post := by
  rw [List.dropWhile_append_of_pos (by intro x hx; simpa using hp x hx), List.dropWhile_cons_of_neg (by simpa using he)]

/-- **C128, integers.** If the text begins with a number, the value of a state, the result of a command and the parameter are the 32-bit number nearest to it: for a number in range, the number. -/
theorem c128_int (s : List Char) (i : Int) (h : Begins s i) (pre post : List XEl) (k : String) :
    ((∀ x ∈ pre, x.tag ≠ "Value") → parseStateValue "int" (pre ++ ⟨"Value", k, s⟩ :: post) = some (.scalar (.int (near i)))) ∧
      ((∀ x ∈ pre, x.tag ≠ "Result") → parseResult "int" (pre ++ ⟨"Result", k, s⟩ :: post) = some (.scalar (.int (near i)))) ∧
      parseParam ⟨"Param", "int", s⟩ = some (.int (near i)) ∧ (-2 ^ 31 ≤ i → i < 2 ^ 31 → near i = i) := by
  have hne : s ≠ [] := by
    rintro rfl
    exact (strtol_begins h).1 rfl
  refine ⟨fun hp => ?_, fun hp => ?_, ?_, fun h1 h2 => by unfold near; omega⟩
  · unfold parseStateValue parseTagged
    rw [tagged_first _ pre _ post hp rfl]
    simp only [Bool.false_and, Bool.false_eq_true, if_false]
    rw [if_neg (by decide), if_neg (by decide), one_int h _ (.inl rfl)]
    rfl
  · unfold parseResult parseTagged
    rw [tagged_first _ pre _ post hp rfl]
    simp only [Bool.true_and, decide_eq_true_eq]
    rw [if_neg hne, if_neg (by decide), if_neg (by decide), one_int h _ (.inl rfl)]
    rfl
  · have hu : s ≠ "UNKNOWN".toList := by
      intro e
      have := begins_not_unknown h "UNKNOWN".toList (by
        intro c hc
        obtain rfl : 'U' = c := by simpa using hc
        decide)
      rw [e] at this
      exact absurd this (by decide)
    unfold parseParam
    simp only
    rw [if_neg (fun e => hne e.1), if_neg hu]
    exact congrArg some (streamInt_begins h)

/-- The decimal digits of a number. -/
theorem num_decimal (n : Nat) : Num 10 (decimal n) n := by
  by_cases h : n = 0
  · subst h; exact .one (.inl rfl) (by omega)
  · exact (dec_num n h).1

theorem begins_print (i : Int) : Begins (printInteger i) i := by
  unfold printInteger
  by_cases h : i < 0
  · rw [if_pos h]
    exact ⟨[], decimal i.natAbs, [], i.natAbs, by intro c hc; simp at hc, num_decimal _, by simp, .inr (.inr ⟨by simp, by omega⟩)⟩
  · rw [if_neg h]
    exact ⟨[], decimal i.natAbs, [], i.natAbs, by intro c hc; simp at hc, num_decimal _, by simp, .inl ⟨by simp, by omega⟩⟩

/-- **C128, round trip.** A 32-bit integer as the executive prints it is read as this integer, as the value of a state, as the result of a command and as a parameter. -/
theorem c128_round_trip (i : Int) (h1 : -2 ^ 31 ≤ i) (h2 : i < 2 ^ 31) (k : String) :
    parseStateValue "int" [⟨"Value", k, printInteger i⟩] = some (.scalar (.int i)) ∧
      parseResult "int" [⟨"Result", k, printInteger i⟩] = some (.scalar (.int i)) ∧ parseParam ⟨"Param", "int", printInteger i⟩ = some (.int i) := by
  obtain ⟨a, b, c, d⟩ := c128_int (printInteger i) i (begins_print i) [] [] k
  rw [d h1 h2] at a b c
  exact ⟨a (by simp), b (by simp), c⟩

/-- **C128, Booleans.** As the value of a state and the result of a command `true` and `false` are read in any mixture of upper and lower case. -/
theorem c128_bool (s : List Char) (b : Bool) (h : s.map Char.toUpper = (if b then "TRUE" else "FALSE").toList) (k : String) (post : List XEl) :
    parseStateValue "bool" (⟨"Value", k, s⟩ :: post) = some (.scalar (.bool b)) ∧ parseResult "bool" (⟨"Result", k, s⟩ :: post) = some (.scalar (.bool b)) := by
  have hl : s.length = (if b then "TRUE" else "FALSE").toList.length := by rw [← h, List.length_map]
  have hne : s ≠ [] := by
    rintro rfl
    cases b <;> cases hl
  have hu : sameNoCase s "Plexil_Unknown".toList = false := by
    cases hs : sameNoCase s "Plexil_Unknown".toList with
    | false => rfl
    | true =>
      rw [sameNoCase_iff] at hs
      rw [h] at hs
      cases b <;> exact absurd hs (by decide)
  have one : parseOneValue "bool" s = some (.bool b) := by
    unfold parseOneValue
    rw [hu, if_neg (by simp), if_neg (by decide), if_neg (by decide), if_neg (by decide), if_pos (by decide)]
    cases b with
    | true => rw [if_pos ((sameNoCase_iff _ _).mpr (h.trans (by decide)))]
    | false =>
      have hf : sameNoCase s "false".toList = true := (sameNoCase_iff _ _).mpr (h.trans (by decide))
      have ht : ¬ sameNoCase s "true".toList = true := by
        rw [sameNoCase_iff, h]; decide
      rw [if_neg ht, if_pos hf]
  constructor
  · unfold parseStateValue parseTagged
    simp only [Bool.false_and, Bool.false_eq_true, if_false]
    rw [List.dropWhile_cons_of_neg (by simp)]
    simp only
    rw [if_neg (by decide), if_neg (by decide), one]; rfl
  · unfold parseResult parseTagged
    simp only [Bool.true_and, decide_eq_true_eq]
    rw [List.dropWhile_cons_of_neg (by simp)]
    simp only
    rw [if_neg hne, if_neg (by decide), if_neg (by decide), one]; rfl

/-- **C128, strings.** The value of a state is the text, and the result of a command is the text if it is not empty, unless the text is `Plexil_Unknown` in any case; a parameter is the text unless that is `UNKNOWN`. -/
theorem c128_string (s : List Char) (k : String) (post : List XEl) :
    (s.map Char.toUpper ≠ "PLEXIL_UNKNOWN".toList →
      parseStateValue "string" (⟨"Value", k, s⟩ :: post) = some (.scalar (.string s)) ∧
      (s ≠ [] → parseResult "string" (⟨"Result", k, s⟩ :: post) = some (.scalar (.string s)))) ∧
      (s ≠ "UNKNOWN".toList → parseParam ⟨"Param", "string", s⟩ = some (.string s)) := by
  refine ⟨fun h => ?_, fun h => ?_⟩
  · have hu : sameNoCase s "Plexil_Unknown".toList = false := by
      cases hs : sameNoCase s "Plexil_Unknown".toList with
      | false => rfl
      | true =>
        rw [sameNoCase_iff] at hs
        exact absurd (hs.trans (by decide)) h
    have one : parseOneValue "string" s = some (.string s) := by
      unfold parseOneValue
      rw [hu, if_neg (by simp), if_pos (by decide)]
    refine ⟨?_, fun hne => ?_⟩
    · unfold parseStateValue parseTagged
      rw [List.dropWhile_cons_of_neg (by simp)]
      simp only [Bool.false_and, Bool.false_eq_true, if_false]
      rw [if_neg (by decide), if_neg (by decide), one]; rfl
    · unfold parseResult parseTagged
      rw [List.dropWhile_cons_of_neg (by simp)]
      simp only [Bool.true_and, decide_eq_true_eq]
      rw [if_neg hne, if_neg (by decide), if_neg (by decide), one]; rfl
  · unfold parseParam
    simp only
    rw [if_neg (fun e => e.2 rfl), if_neg h, if_neg (by decide), if_neg (by decide), if_neg (by decide)]

/-- **C128, unknown.** `Plexil_Unknown`, in any case, is the unknown value whatever the type; as a parameter the unknown value is `UNKNOWN`. -/
theorem c128_unknown (s : List Char) (h : s.map Char.toUpper = "PLEXIL_UNKNOWN".toList) (k type : String) (ht : type ≠ "") (ha : isArray type = false) (post : List XEl) :
    parseStateValue type (⟨"Value", k, s⟩ :: post) = some (.scalar .unknown) ∧ parseResult type (⟨"Result", k, s⟩ :: post) = some (.scalar .unknown) ∧
      parseParam ⟨"Param", type, "UNKNOWN".toList⟩ = some .unknown := by
  have hs : sameNoCase s "Plexil_Unknown".toList = true := (sameNoCase_iff _ _).mpr (h.trans (by decide))
  have hne : s ≠ [] := by rintro rfl; cases h
  have one : parseOneValue type s = some .unknown := by unfold parseOneValue; rw [if_pos hs]
  refine ⟨?_, ?_, ?_⟩
  · unfold parseStateValue parseTagged
    rw [List.dropWhile_cons_of_neg (by simp)]
    simp only [Bool.false_and, Bool.false_eq_true, if_false]
    rw [if_neg ht, ha, if_neg (by simp), one]; rfl
  · unfold parseResult parseTagged
    rw [List.dropWhile_cons_of_neg (by simp)]
    simp only [Bool.true_and, decide_eq_true_eq]
    rw [if_neg hne, if_neg ht, ha, if_neg (by simp), one]; rfl
  · unfold parseParam
    simp only
    rw [if_neg (by rintro ⟨h, -⟩; exact absurd h (by decide)), if_pos trivial]

theorem mapM_ints : ∀ (l : List (XEl × Int)), (∀ x ∈ l, Begins x.1.text x.2) →
    ((l.map Prod.fst).mapM fun x => parseOneValue "int-array" x.text) = some (l.map fun x => .int (near x.2))
  | [], _ => rfl
  | x :: l, h => by
    rw [List.map_cons, List.mapM_cons, one_int (h x (by simp)) _ (.inr rfl), mapM_ints l (fun y hy => h y (by simp [hy]))]
    rfl

/-- **C128, arrays of integers.** The elements of the array are the numbers of the elements in their order … -/
theorem c128_array (l : List (XEl × Int)) (hl : l ≠ []) (h : ∀ x ∈ l, Begins x.1.text x.2 ∧ x.1.tag = "Value") (pre : List XEl) (hp : ∀ x ∈ pre, x.tag ≠ "Value") :
    parseStateValue "int-array" (pre ++ l.map Prod.fst) = some (.array (l.map fun x => .int (near x.2))) := by
  cases l with
  | nil => exact absurd rfl hl
  | cons x l =>
    unfold parseStateValue parseTagged
    rw [List.map_cons, tagged_first _ pre _ _ hp (h x (by simp)).2]
    simp only [Bool.false_and, Bool.false_eq_true, if_false]
    rw [if_neg (by decide), if_pos (by decide), ← List.map_cons (f := Prod.fst), mapM_ints (x :: l) fun y hy => (h y hy).1]
    rfl

/-- … **but** whatever follows the first element of the value becomes an element of it, the parameters of the command or state too. -/
theorem c128_array_refuted (l : List (XEl × Int)) (h : ∀ x ∈ l, Begins x.1.text x.2) (s : List Char) (i : Int) (hs : Begins s i) (k : String) :
    parseStateValue "int-array" (⟨"Value", k, s⟩ :: l.map Prod.fst) = some (.array (.int (near i) :: l.map fun x => .int (near x.2))) ∧
      parseResult "int-array" (⟨"Result", k, s⟩ :: l.map Prod.fst) = some (.array (.int (near i) :: l.map fun x => .int (near x.2))) := by
  have hne : s ≠ [] := by
    rintro rfl
    exact (strtol_begins hs).1 rfl
  have key : ∀ t : String, (((⟨t, k, s⟩ : XEl) :: l.map Prod.fst).mapM fun x => parseOneValue "int-array" x.text) =
      some (.int (near i) :: l.map fun x => .int (near x.2)) := fun t => mapM_ints ((⟨t, k, s⟩, i) :: l) (by
    intro x hx
    rcases List.mem_cons.mp hx with rfl | hx
    · exact hs
    · exact h x hx)
  constructor
  · unfold parseStateValue parseTagged
    rw [List.dropWhile_cons_of_neg (by simp)]
    simp only [Bool.false_and, Bool.false_eq_true, if_false]
    rw [if_neg (by decide), if_pos (by decide), key]; rfl
  · unfold parseResult parseTagged
    rw [List.dropWhile_cons_of_neg (by simp)]
    simp only [Bool.true_and, decide_eq_true_eq]
    rw [if_neg hne, if_neg (by decide), if_pos (by decide), key]; rfl

/-- **C128 is false of texts that are no numbers.** They are taken for 0, without a word; and an empty one is whatever was on the stack. -/
theorem c128_no_number_refuted (s : List Char) (h : ¬ ∃ i, Begins s i) (hu : s.map Char.toUpper ≠ "PLEXIL_UNKNOWN".toList) (k : String) :
    (¬ Blank s → parseStateValue "int" [⟨"Value", k, s⟩] = some (.scalar (.int 0))) ∧ (Blank s → parseStateValue "int" [⟨"Value", k, s⟩] = some (.scalar .garbage)) := by
  have hu' : sameNoCase s "Plexil_Unknown".toList = false := by
    cases hs : sameNoCase s "Plexil_Unknown".toList with
    | false => rfl
    | true =>
      rw [sameNoCase_iff] at hs
      exact absurd (hs.trans (by decide)) hu
  have one : parseOneValue "int" s = some (streamInt s) := by
    unfold parseOneValue
    rw [hu', if_neg (by simp), if_neg (by decide), if_pos (by decide)]
  have key : parseStateValue "int" [⟨"Value", k, s⟩] = some (.scalar (streamInt s)) := by
    unfold parseStateValue parseTagged
    rw [List.dropWhile_cons_of_neg (by simp)]
    simp only [Bool.false_and, Bool.false_eq_true, if_false]
    rw [if_neg (by decide), if_neg (by decide), one]; rfl
  refine ⟨fun hb => by rw [key, streamInt_no h hb], fun hb => ?_⟩
  rw [key]; unfold streamInt; rw [if_pos ((blank_iff s).mp hb)]

/-- **C128 is false of Boolean parameters.** A text that does not begin with a number, `true` for one, is taken for false: a command or state with such a parameter is never the one meant. -/
theorem c128_param_bool_refuted (s : List Char) (h : ¬ ∃ i, Begins s i) (hb : ¬ Blank s) (hu : s ≠ "UNKNOWN".toList) :
    parseParam ⟨"Param", "bool", s⟩ = some (.bool false) := by
  have hne : s ≠ [] := by rintro rfl; exact hb (by intro c hc; simp at hc)
  unfold parseParam
  simp only
  rw [if_neg (fun e => hne e.1), if_neg hu, if_neg (by decide), if_neg (by decide), if_pos (by decide), streamBool_no h hb]

/-- **C128 is false of empty results** (and of the parameters that are no strings): they are errors. -/
theorem c128_empty_result_refuted (type k : String) (post : List XEl) :
    parseResult type (⟨"Result", k, []⟩ :: post) = none ∧ (k ≠ "string" → parseParam ⟨"Param", k, []⟩ = none) := by
  constructor
  · unfold parseResult parseTagged
    rw [List.dropWhile_cons_of_neg (by simp)]
    simp
  · intro h
    unfold parseParam
    rw [if_pos ⟨rfl, h⟩]

/-! ### Examples -/

/-- `12abc` begins with 12, ` -3.7` with -3, `true` with no number. -/
theorem c128_begins_example : Begins "12abc".toList 12 ∧ Begins " -3.7".toList (-3) ∧ ¬ (∃ i, Begins "true".toList i) ∧ ¬ Blank "true".toList ∧
    "true".toList ≠ "UNKNOWN".toList := by
  refine ⟨⟨[], "12".toList, "abc".toList, 12, by intro c hc; simp at hc, c74_size_example, by simp, .inl ⟨rfl, rfl⟩⟩,
    ⟨[' '], "3".toList, ".7".toList, 3, by intro c hc; simp at hc; simp [hc], .one (.inl rfl) (by omega), by simp, .inr (.inr ⟨rfl, rfl⟩)⟩, ?_, ?_, by decide⟩
  · rintro ⟨i, h⟩
    obtain ⟨-, e, r, h⟩ := strtol_begins h
    have : strtol 10 "true".toList = none := by decide
    rw [this] at h; cases h
  · intro h
    exact absurd (h 't' (by decide)) (by decide)

example : parseParam ⟨"Param", "bool", "true".toList⟩ = some (.bool false) :=
  c128_param_bool_refuted _ c128_begins_example.2.2.1 c128_begins_example.2.2.2.1 c128_begins_example.2.2.2.2

/-- The commanded array is `(1, 2)`; the parameter 7 that follows it becomes a third element. -/
example : parseResult "int-array" [⟨"Result", "", "1".toList⟩, ⟨"Result", "", "2".toList⟩, ⟨"Param", "int", "7".toList⟩] = some (.array [.int 1, .int 2, .int 7]) := by
  decide

end Verif.Script
