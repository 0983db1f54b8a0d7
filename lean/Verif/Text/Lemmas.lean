import Verif.Text.Spec
import Mathlib.Tactic.IntervalCases
import Mathlib.Data.List.Induction
namespace Verif.Text

theorem char_eq_of_toNat {c : Char} {n : Nat} (h : c.toNat = n) : c = Char.ofNat n := by
  rw [← h, Char.ofNat_toNat]

theorem char_le {a b : Char} : a ≤ b ↔ a.toNat ≤ b.toNat := by
  rw [Char.le_def]; exact UInt32.le_iff_toNat_le

theorem digitVal_iff (c : Char) (d : Nat) (hd : d < 16) : digitVal c = some d ↔ DigitIs c d := by
  constructor
  · intro h
    unfold digitVal at h
    simp only [char_le] at h
    split at h
    · rename_i hc
      have h1 : 48 ≤ c.toNat := hc.1
      have h2 : c.toNat ≤ 57 := hc.2
      injection h with h
      have : c = Char.ofNat (d + 48) := char_eq_of_toNat (by omega)
      subst this
      have : d < 10 := by omega
      clear h h1 h2 hc hd
      interval_cases d <;> exact .inl rfl
    · split at h
      · rename_i hc
        have h1 : 97 ≤ c.toNat := hc.1
        injection h with h
        have h3 : 10 ≤ d := by omega
        have : c = Char.ofNat (d + 87) := char_eq_of_toNat (by omega)
        subst this
        clear h h1 hc
        interval_cases d <;> exact .inl rfl
      · split at h
        · rename_i hc
          have h1 : 65 ≤ c.toNat := hc.1
          injection h with h
          have h3 : 10 ≤ d := by omega
          have : c = Char.ofNat (d + 55) := char_eq_of_toNat (by omega)
          subst this
          clear h h1 hc
          interval_cases d <;> exact .inr rfl
        · cases h
  · intro h
    unfold DigitIs at h
    interval_cases d <;> rcases h with h | h <;> (injection h with h; subst h; decide)

/-- One more digit. -/
def push (b n : Nat) (c : Char) : Nat := n * b + (digitVal c).getD 0

theorem scanDigits_spec (b : Nat) : ∀ (s : List Char) (n : Nat),
    scanDigits b s n = ((s.takeWhile (isDigit b)).foldl (push b) n, s.dropWhile (isDigit b)) := by
  intro s
  induction s with
  | nil => intro n; rfl
  | cons c s ih =>
    intro n
    rw [scanDigits]
    cases h : digitVal c with
    | none => simp [isDigit, h]
    | some d =>
      by_cases hd : d < b
      · simp only [if_pos hd]
        rw [ih]
        simp [isDigit, h, hd, push]
      · simp [isDigit, h, hd]

theorem num_iff (b : Nat) (hb : b ≤ 16) (ds : List Char) (n : Nat) :
    Num b ds n ↔ ds ≠ [] ∧ (∀ c ∈ ds, isDigit b c = true) ∧ n = ds.foldl (push b) 0 := by
  have dig : ∀ c d, DigitIs c d → d < b → isDigit b c = true ∧ digitVal c = some d := by
    intro c d h hd
    have := (digitVal_iff c d (by omega)).mpr h
    exact ⟨by simp [isDigit, this, hd], this⟩
  constructor
  · intro h
    induction h with
    | one h hd =>
      obtain ⟨h1, h2⟩ := dig _ _ h hd
      exact ⟨by simp, by simpa using h1, by simp [push, h2]⟩
    | snoc hn h hd ih =>
      obtain ⟨h1, h2⟩ := dig _ _ h hd
      refine ⟨by simp, ?_, ?_⟩
      · intro c hc
        rcases List.mem_append.mp hc with hc | hc
        · exact ih.2.1 c hc
        · rw [List.mem_singleton] at hc; subst hc; exact h1
      · rw [List.foldl_append, ← ih.2.2]; simp [push, h2]
  · rintro ⟨h1, h2, rfl⟩
    induction ds using List.reverseRecOn with
    | nil => exact absurd rfl h1
    | append_singleton ds c ih =>
      have hc := h2 c (by simp)
      unfold isDigit at hc
      cases hv : digitVal c with
      | none => rw [hv] at hc; cases hc
      | some d =>
        rw [hv] at hc
        have hd : d < b := by simpa using hc
        have hi := (digitVal_iff c d (by omega)).mp hv
        rw [List.foldl_append]
        by_cases he : ds = []
        · subst he
          simp only [List.nil_append, List.foldl_nil, List.foldl_cons, push, hv, Option.getD_some]
          simpa using Num.one hi hd
        · simp only [List.foldl_nil, List.foldl_cons, push, hv, Option.getD_some]
          exact Num.snoc (ih he (fun c hc => h2 c (by simp [hc]))) hi hd

theorem isSpace_iff (c : Char) : isSpace c = true ↔ c ∈ [' ', '\t', '\n', '\x0b', '\x0c', '\r'] := by
  simp [isSpace, or_assoc]

/-- The digits after the prefix; how `strtol` reads an unsigned constant. -/
def readUnsigned (s : List Char) : Option (Nat × List Char) :=
  let (b, s3) := numBase 0 s
  match s3 with
  | [] => none
  | c :: _ => if isDigit b c then some (scanDigits b s3 0) else none

theorem readUnsigned_eq (s : List Char) : readUnsigned s =
    (match (numBase 0 s).2 with
     | [] => none
     | c :: _ => if isDigit (numBase 0 s).1 c then some (scanDigits (numBase 0 s).1 (numBase 0 s).2 0) else none) := rfl

theorem strtol_eq (s : List Char) : strtol 0 s =
    match readUnsigned (sign (s.dropWhile isSpace)).2 with
    | none => none
    | some (n, rest) =>
      let v : Int := if (sign (s.dropWhile isSpace)).1 then -n else n
      if v > 2 ^ 63 - 1 then some (2 ^ 63 - 1, true, rest)
      else if v < -2 ^ 63 then some (-2 ^ 63, true, rest)
      else some (v, false, rest) := by
  unfold strtol readUnsigned
  simp only
  generalize numBase 0 (sign (List.dropWhile isSpace s)).2 = p
  obtain ⟨b, s3⟩ := p
  simp only
  cases s3 with
  | nil => rfl
  | cons c r =>
    simp only
    cases h : isDigit b c <;> simp

theorem takeWhile_all {α : Type} {p : α → Bool} {l : List α} (h : ∀ a ∈ l, p a = true) : l.takeWhile p = l := by
  induction l with
  | nil => rfl
  | cons a l ih => rw [List.takeWhile_cons_of_pos (h a (by simp)), ih (fun a ha => h a (List.mem_cons_of_mem _ ha))]

theorem dropWhile_all {α : Type} {p : α → Bool} {l : List α} (h : ∀ a ∈ l, p a = true) : l.dropWhile p = [] := by
  induction l with
  | nil => rfl
  | cons a l ih => rw [List.dropWhile_cons_of_pos (h a (by simp)), ih (fun a ha => h a (List.mem_cons_of_mem _ ha))]

theorem all_of_dropWhile {α : Type} {p : α → Bool} {l : List α} (h : l.dropWhile p = []) : ∀ a ∈ l, p a = true := by
  induction l with
  | nil => intro a ha; cases ha
  | cons b l ih =>
    cases hb : p b with
    | false => rw [List.dropWhile_cons_of_neg (by simp [hb])] at h; cases h
    | true =>
      rw [List.dropWhile_cons_of_pos hb] at h
      intro a ha
      rcases List.mem_cons.mp ha with rfl | ha
      · exact hb
      · exact ih h a ha

theorem scan_full {b : Nat} {s : List Char} {n : Nat} (hb : b ≤ 16) (hs : s ≠ []) :
    scanDigits b s 0 = (n, []) ↔ Num b s n := by
  rw [scanDigits_spec, num_iff b hb, Prod.mk.injEq]
  constructor
  · rintro ⟨h1, h2⟩
    have := all_of_dropWhile h2
    exact ⟨hs, this, by rw [← h1, takeWhile_all this]⟩
  · rintro ⟨-, h1, rfl⟩
    exact ⟨by rw [takeWhile_all h1], dropWhile_all h1⟩

theorem isDigit_mono {b b' : Nat} (h : b ≤ b') {c : Char} (hc : isDigit b c = true) : isDigit b' c = true := by
  unfold isDigit at *
  cases hd : digitVal c with
  | none => rw [hd] at hc; exact hc
  | some d => rw [hd] at hc; simp only [decide_eq_true_eq] at *; omega

theorem num_head {b : Nat} (hb : b ≤ 16) {ds : List Char} {n : Nat} (h : Num b ds n) : ∃ c r, ds = c :: r ∧ isDigit b c = true := by
  have := (num_iff b hb ds n).mp h
  cases ds with
  | nil => exact absurd rfl this.1
  | cons c r => exact ⟨c, r, rfl, this.2.1 c (by simp)⟩

theorem readUnsigned_iff (s : List Char) (n : Nat) : readUnsigned s = some (n, []) ↔ Unsigned s n := by
  rw [readUnsigned_eq]
  constructor
  · intro h
    -- by the base
    have key : ∀ b s', numBase 0 s = (b, s') → b ≤ 16 → (match s' with
        | [] => none
        | c :: _ => if isDigit b c then some (scanDigits b s' 0) else none) = some (n, []) → Num b s' n := by
      intro b s' _ hb h
      cases s' with
      | nil => cases h
      | cons c r =>
        simp only at h
        split at h
        · injection h with h; exact (scan_full hb (by simp)).mp h
        · cases h
    rcases s with _ | ⟨c0, s⟩
    · simp [numBase] at h
    · by_cases h0 : c0 = '0'
      · subst h0
        rcases s with _ | ⟨x, s⟩
        · exact .oct (key 8 _ rfl (by omega) h) rfl
        · rcases s with _ | ⟨c, r⟩
          · exact .oct (key 8 _ rfl (by omega) h) rfl
          · by_cases hx : (x = 'x' ∨ x = 'X') ∧ isDigit 16 c = true
            · have e : numBase 0 ('0' :: x :: c :: r) = (16, c :: r) := by simp [numBase, hx]
              rw [e] at h
              exact .hex hx.1 (key 16 _ e (by omega) h)
            · have e : numBase 0 ('0' :: x :: c :: r) = (8, '0' :: x :: c :: r) := by
                unfold numBase; simp only [if_true]; rw [if_neg hx]
              rw [e] at h
              exact .oct (key 8 _ e (by omega) h) rfl
      · have e : numBase 0 (c0 :: s) = (10, c0 :: s) := by
          unfold numBase
          simp only [if_true]
          split
          · rename_i heq; injection heq with h1 _; exact absurd h1 h0
          · rename_i heq; injection heq with h1 _; exact absurd h1 h0
          · rfl
        rw [e] at h
        exact .dec (key 10 _ e (by omega) h) (by simpa using h0)
  · intro h
    cases h with
    | dec hn hh =>
      obtain ⟨c, r, rfl, hc⟩ := num_head (by omega) hn
      have h0 : c ≠ '0' := by simpa using hh
      have e : numBase 0 (c :: r) = (10, c :: r) := by
        unfold numBase
        simp only [if_true]
        split
        · rename_i heq; injection heq with h1 _; exact absurd h1 h0
        · rename_i heq; injection heq with h1 _; exact absurd h1 h0
        · rfl
      rw [e]; simp only
      rw [if_pos hc, (scan_full (by omega) (by simp)).mpr hn]
    | oct hn hh =>
      obtain ⟨c, r, rfl, hc⟩ := num_head (by omega) hn
      have h0 : c = '0' := by simpa using hh
      subst h0
      have e : numBase 0 ('0' :: r) = (8, '0' :: r) := by
        rcases r with _ | ⟨x, r⟩
        · rfl
        · rcases r with _ | ⟨c, r⟩
          · rfl
          · have hx : ¬ ((x = 'x' ∨ x = 'X') ∧ isDigit 16 c = true) := by
              intro hx
              have := ((num_iff 8 (by omega) _ _).mp hn).2.1 x (by simp)
              rcases hx.1 with rfl | rfl <;> exact absurd this (by decide)
            unfold numBase; simp only [if_true]; rw [if_neg hx]
      rw [e]; simp only
      rw [if_pos hc, (scan_full (by omega) (by simp)).mpr hn]
    | hex hx hn =>
      obtain ⟨c, r, rfl, hc⟩ := num_head (by omega) hn
      rename_i x
      have e : numBase 0 ('0' :: x :: c :: r) = (16, c :: r) := by simp [numBase, hx, hc]
      rw [e]; simp only
      rw [if_pos hc, (scan_full (by omega) (by simp)).mpr hn]

theorem unsigned_head {s : List Char} {n : Nat} (h : Unsigned s n) : ∃ c r, s = c :: r ∧ isDigit 10 c = true := by
  cases h with
  | dec hn _ => exact num_head (by omega) hn
  | oct hn _ =>
    obtain ⟨c, r, h, hc⟩ := num_head (by omega) hn
    exact ⟨c, r, h, isDigit_mono (by omega) hc⟩
  | hex _ _ => exact ⟨_, _, rfl, by decide⟩

theorem digit_not_special {c : Char} (h : isDigit 10 c = true) : isSpace c = false ∧ c ≠ '+' ∧ c ≠ '-' := by
  refine ⟨?_, ?_, ?_⟩
  · cases hs : isSpace c with
    | false => rfl
    | true =>
      have := (isSpace_iff c).mp hs
      simp only [List.mem_cons, List.not_mem_nil, or_false] at this
      rcases this with rfl | rfl | rfl | rfl | rfl | rfl <;> exact absurd h (by decide)
  · rintro rfl; exact absurd h (by decide)
  · rintro rfl; exact absurd h (by decide)

theorem dropWhile_blanks {bl r : List Char} (h : ∀ c ∈ bl, isSpace c = true) (hr : ∀ c ∈ r.head?, isSpace c = false) :
    (bl ++ r).dropWhile isSpace = r := by
  induction bl with
  | nil =>
    cases r with
    | nil => rfl
    | cons c r => rw [List.nil_append, List.dropWhile_cons_of_neg]; simp [hr c rfl]
  | cons c bl ih => rw [List.cons_append, List.dropWhile_cons_of_pos (h c (by simp)), ih (fun c hc => h c (List.mem_cons_of_mem _ hc))]

theorem integerText_iff (s : List Char) (v : Int) : IntegerText s v ↔
    ∃ n, readUnsigned (sign (s.dropWhile isSpace)).2 = some (n, []) ∧ v = if (sign (s.dropWhile isSpace)).1 then -(n : Int) else n := by
  constructor
  · intro h
    cases h with
    | mk hb hu =>
      rename_i n
      obtain ⟨c, r, rfl, hc⟩ := unsigned_head hu
      obtain ⟨h1, h2, h3⟩ := digit_not_special hc
      rw [dropWhile_blanks (fun c hc => (isSpace_iff c).mpr (hb c hc)) (by simpa using h1)]
      have e : sign (c :: r) = (false, c :: r) := by
        unfold sign
        split
        · rename_i heq; injection heq with h _; exact absurd h h3
        · rename_i heq; injection heq with h _; exact absurd h h2
        · rfl
      rw [e]
      exact ⟨n, (readUnsigned_iff _ _).mpr hu, rfl⟩
    | plus hb hu =>
      rename_i n
      rw [dropWhile_blanks (fun c hc => (isSpace_iff c).mpr (hb c hc)) (by simp; decide)]
      exact ⟨n, (readUnsigned_iff _ _).mpr hu, rfl⟩
    | minus hb hu =>
      rename_i n
      rw [dropWhile_blanks (fun c hc => (isSpace_iff c).mpr (hb c hc)) (by simp; decide)]
      exact ⟨n, (readUnsigned_iff _ _).mpr hu, rfl⟩
  · rintro ⟨n, h, rfl⟩
    have hb : ∀ c ∈ s.takeWhile isSpace, c ∈ [' ', '\t', '\n', '\x0b', '\x0c', '\r'] :=
      fun c hc => (isSpace_iff c).mp (List.all_eq_true.mp List.all_takeWhile c hc)
    have hs : s = s.takeWhile isSpace ++ s.dropWhile isSpace := List.takeWhile_append_dropWhile.symm
    rw [readUnsigned_iff] at h
    generalize hr : s.dropWhile isSpace = r at h hs
    rw [hs]
    unfold sign at h ⊢
    split at h
    · exact .minus hb h
    · exact .plus hb h
    · exact .mk hb h

end Verif.Text
