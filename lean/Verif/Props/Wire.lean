import Verif.Ipc.Wire
import Verif.Ipc.WireSpec
import Verif.Props.Text
set_option autoImplicit false
/-!
C101: values sent through IPC. C102: labels and names of received messages.
-/
namespace Verif.Ipc
open Verif.Value (Byte I32 F64 Str VType Arr Payload Value)
open Verif.Text (printInteger strtol decimal isDigit isSpace scanDigits Num)

/-! ### Values -/

theorem elements_full {α : Type} {a : Arr α} {l : List α} (h : Full a l) : elements a 0 a.size = some l := by
  have key : ∀ (n i : Nat), i + n = l.length → elements a i n = some (l.drop i) := by
    intro n
    induction n with
    | zero => intro i hi; simp [elements, List.drop_eq_nil_of_le (show l.length ≤ i by omega)]
    | succ n ih =>
      intro i hi
      have hg : a.getElement i = some (l[i]'(by omega)) := by
        have h1 : i < a.size := by simp [Arr.size, h.2]; omega
        have h2 : a.known[i]? = some true := by rw [h.2, List.getElem?_replicate, if_pos (by omega)]
        simp only [Arr.getElement, h1, h2, if_true, h.1]
        exact List.getElem?_eq_getElem _
      simp only [elements, hg, ih (i + 1) (by omega), Option.map_some]
      rw [List.drop_eq_getElem_cons (show i < l.length by omega)]
  have hs : a.size = l.length := by simp [Arr.size, h.2]
  rw [hs, key l.length 0 (by omega)]; rfl

theorem full_of_elements {α : Type} {a : Arr α} {l : List α} (hw : a.WF) (h : elements a 0 a.size = some l) : Full a l := by
  have key : ∀ (n i : Nat) (l : List α), i + n = a.known.length → elements a i n = some l →
      a.contents.drop i = l ∧ a.known.drop i = List.replicate l.length true := by
    intro n
    induction n with
    | zero =>
      intro i l hi h
      simp only [elements, Option.some.injEq] at h
      subst h
      have hc : a.contents.length = a.known.length := hw
      exact ⟨List.drop_eq_nil_of_le (by omega), List.drop_eq_nil_of_le (by omega)⟩
    | succ n ih =>
      intro i l hi h
      simp only [elements] at h
      cases hg : a.getElement i with
      | none => simp [hg] at h
      | some x =>
        simp only [hg] at h
        cases hr : elements a (i + 1) n with
        | none => simp [hr] at h
        | some r =>
          simp only [hr, Option.map_some, Option.some.injEq] at h
          subst h
          obtain ⟨h1, h2⟩ := ih (i + 1) r (by omega) hr
          have hc : a.contents.length = a.known.length := hw
          unfold Arr.getElement at hg
          split at hg
          · split at hg
            · rename_i hk
              rw [List.drop_eq_getElem_cons (show i < a.contents.length by omega), h1]
              rw [List.drop_eq_getElem_cons (show i < a.known.length by omega), h2]
              rw [List.getElem?_eq_getElem (by omega)] at hg hk
              simp only [Option.some.injEq] at hg hk
              simp [hg, hk, List.replicate_succ]
            · cases hg
          · cases hg
  have := key a.size 0 l (by simp [Arr.size]) h
  simpa [Full] using this

theorem fill_ofSize {α : Type} (d : α) (l : List α) : fill (Arr.ofSize d l.length) 0 l = { known := List.replicate l.length true, contents := l } := by
  have key : ∀ (l pre : List α), fill { known := List.replicate pre.length true ++ List.replicate l.length false, contents := pre ++ List.replicate l.length d } pre.length l =
      { known := List.replicate (pre.length + l.length) true, contents := pre ++ l } := by
    intro l
    induction l with
    | nil => intro pre; simp [fill]
    | cons x r ih =>
      intro pre
      have := ih (pre ++ [x])
      simp only [List.length_append, List.length_cons, List.length_nil, List.append_assoc, List.cons_append, List.nil_append] at this
      simp only [fill]
      rw [show Arr.setElement { known := List.replicate pre.length true ++ List.replicate (x :: r).length false, contents := pre ++ List.replicate (x :: r).length d } pre.length x =
        { known := List.replicate (pre.length + (0 + 1)) true ++ List.replicate r.length false, contents := pre ++ x :: List.replicate r.length d } by
          have h1 : (List.replicate pre.length true ++ List.replicate (x :: r).length false).set pre.length true = List.replicate (pre.length + (0 + 1)) true ++ List.replicate r.length false := by
            rw [List.set_append_right _ _ (by simp)]
            rw [show pre.length + (0 + 1) = pre.length + 1 from rfl, List.replicate_succ' (n := pre.length), List.length_replicate, Nat.sub_self, List.length_cons,
              List.replicate_succ, List.set_cons_zero, List.append_assoc]
            rfl
          have h2 : (pre ++ List.replicate (x :: r).length d).set pre.length x = pre ++ x :: List.replicate r.length d := by
            rw [List.set_append_right _ _ (by simp)]
            simp [List.replicate_succ]
          unfold Arr.setElement
          rw [if_pos (by simp [Arr.size])]
          dsimp only
          rw [h1, h2]]
      simp only [Nat.zero_add] at this ⊢
      rw [this]
      simp [Nat.add_assoc, Nat.add_comm 1]
  have := key l []
  simpa [Arr.ofSize] using this

theorem full_ofList {α : Type} (l : List α) : Full { known := List.replicate l.length true, contents := l } l := ⟨rfl, rfl⟩

theorem full_eq {α : Type} {a : Arr α} {l : List α} (h : Full a l) : a = { known := List.replicate l.length true, contents := l } := by
  cases a; simp only [Full] at h; simp [h.1, h.2]

theorem cstr_plain {s : Str} (h : Plain s) : cstr s = s := by
  induction s with
  | nil => rfl
  | cons b r ih =>
    have hb : b ≠ 0 := fun e => h (by simp [e])
    have := ih (fun h' => h (List.mem_cons_of_mem _ h'))
    unfold cstr at this ⊢
    rw [List.takeWhile_cons_of_pos (by simpa using hb), this]

theorem plain_cstr (s : Str) : Plain (cstr s) := by
  induction s with
  | nil => simp [Plain, cstr]
  | cons b r ih =>
    unfold cstr
    by_cases hb : b = 0
    · subst hb; simp [Plain]
    · rw [List.takeWhile_cons_of_pos (by simpa using hb)]
      intro h
      rcases List.mem_cons.1 h with h | h
      · exact hb h.symm
      · exact ih h

theorem byteOf_ne (b : Bool) : (byteOf b != 0) = b := by cases b <;> rfl

theorem map_byte (l : List Bool) : (l.map byteOf).map (fun x => x != 0) = l := by
  rw [List.map_map]
  conv => rhs; rw [← List.map_id l]
  exact List.map_congr_left (fun b _ => byteOf_ne b)

/-- What the receiver gets, whatever is sent. -/
theorem transmitted_eq (v : Value) :
    transmitted v = (match v with
      | .unknown _ => some (.unknown .unknownT)
      | .known (.bool b) => some (.known (.bool b))
      | .known (.int i) => some (.known (.int i))
      | .known (.real r) => some (.known (.real r))
      | .known (.str s) => some (.known (.str (s.takeWhile (fun b => b ≠ 0))))
      | .known (.boolArr a) => (elements a 0 a.size).map (fun l => .known (.boolArr ⟨List.replicate l.length true, l⟩))
      | .known (.intArr a) => (elements a 0 a.size).map (fun l => .known (.intArr ⟨List.replicate l.length true, l⟩))
      | .known (.realArr a) => (elements a 0 a.size).map (fun l => .known (.realArr ⟨List.replicate l.length true, l⟩))
      | .known (.strArr a) => (elements a 0 a.size).map (fun l => .known (.strArr ⟨List.replicate l.length true, l.map (fun s => s.takeWhile (fun b => b ≠ 0))⟩))
      | _ => none) := by
  cases v with
  | unknown t => rfl
  | known p =>
    cases p with
    | bool b => exact congrArg (fun x => some (Value.known (.bool x))) (byteOf_ne b)
    | int i => rfl
    | real r => rfl
    | str s => rfl
    | boolArr a =>
      simp only [transmitted, construct]
      cases elements a 0 a.size with
      | none => rfl
      | some l =>
        simp only [builtArr, published, Option.map_some, decode, map_byte]
        have := fill_ofSize false l
        simp only [List.length_map]
        rw [this]
    | intArr a =>
      simp only [transmitted, construct]
      cases elements a 0 a.size with
      | none => rfl
      | some l => simp only [builtArr, published, Option.map_some, decode, fill_ofSize]
    | realArr a =>
      simp only [transmitted, construct]
      cases elements a 0 a.size with
      | none => rfl
      | some l => simp only [builtArr, published, Option.map_some, decode, fill_ofSize]
    | strArr a =>
      simp only [transmitted, construct]
      cases elements a 0 a.size with
      | none => rfl
      | some l =>
        have := fill_ofSize ([] : Str) (l.map cstr)
        simp only [builtArr, published, Option.map_some, decode]
        rw [this, List.length_map]
        rfl
    | nodeState x => rfl
    | outcome x => rfl
    | failure x => rfl
    | handle x => rfl

theorem elements_none {α : Type} {a : Arr α} (hw : a.WF) : elements a 0 a.size = none ↔ ∃ i < a.size, a.known[i]? = some false := by
  constructor
  · intro h
    apply Classical.byContradiction
    intro hn
    have hf : Full a a.contents := by
      refine ⟨rfl, ?_⟩
      rw [show a.contents.length = a.known.length from hw, List.eq_replicate_iff]
      refine ⟨rfl, fun b hb => ?_⟩
      obtain ⟨i, hi, e⟩ := List.mem_iff_getElem.1 hb
      cases b with
      | true => rfl
      | false => exact absurd ⟨i, hi, by rw [List.getElem?_eq_getElem hi, e]⟩ hn
    rw [elements_full hf] at h
    cases h
  · rintro ⟨i, hi, hk⟩
    cases h : elements a 0 a.size with
    | none => rfl
    | some l =>
      have hf := full_of_elements hw h
      rw [hf.2, List.getElem?_replicate] at hk
      split at hk <;> simp at hk

/-- The class invariant of arrays (see `Verif.Value.Arr.WF`). -/
def ArrOk : Value → Prop
  | .known (.boolArr a) => a.WF
  | .known (.intArr a) => a.WF
  | .known (.realArr a) => a.WF
  | .known (.strArr a) => a.WF
  | _ => True

/-- **C101**: exactly these values arrive as they were sent: Booleans, numbers, strings without zero bytes, arrays of such all of whose elements are known, and
"unknown" of no type. -/
theorem c101_same_value_partial (v : Value) (hw : ArrOk v) : transmitted v = some v ↔ Sendable v := by
  rw [transmitted_eq]
  constructor
  · intro h
    cases v with
    | unknown t => simp at h; subst h; exact .unknown
    | known p =>
      cases p with
      | bool b => exact .bool b
      | int i => exact .int i
      | real r => exact .real r
      | str s =>
        simp only [Option.some.injEq, Value.known.injEq, Payload.str.injEq] at h
        exact .str s (h ▸ plain_cstr s)
      | boolArr a =>
        cases he : elements a 0 a.size with
        | none => simp [he] at h
        | some l => exact .boolArr a l (full_of_elements hw he)
      | intArr a =>
        cases he : elements a 0 a.size with
        | none => simp [he] at h
        | some l => exact .intArr a l (full_of_elements hw he)
      | realArr a =>
        cases he : elements a 0 a.size with
        | none => simp [he] at h
        | some l => exact .realArr a l (full_of_elements hw he)
      | strArr a =>
        cases he : elements a 0 a.size with
        | none => simp [he] at h
        | some l =>
          have hf := full_of_elements hw he
          refine .strArr a l hf (fun s hs => ?_)
          simp only [he, Option.map_some, Option.some.injEq, Value.known.injEq, Payload.strArr.injEq] at h
          have h2 : l.map cstr = l := by
            have := congrArg Arr.contents h
            rw [hf.1] at this
            exact this
          rw [← h2] at hs
          obtain ⟨t, _, rfl⟩ := List.mem_map.1 hs
          exact plain_cstr t
      | nodeState x => simp at h
      | outcome x => simp at h
      | failure x => simp at h
      | handle x => simp at h
  · intro h
    cases h with
    | unknown => rfl
    | bool b => rfl
    | int i => rfl
    | real r => rfl
    | str s h => exact congrArg (fun t => some (Value.known (.str t))) (cstr_plain h)
    | boolArr a l h => simp only [elements_full h, Option.map_some, ← full_eq h]
    | intArr a l h => simp only [elements_full h, Option.map_some, ← full_eq h]
    | realArr a l h => simp only [elements_full h, Option.map_some, ← full_eq h]
    | strArr a l h hp =>
      have h2 : l.map (fun s => s.takeWhile (fun b => b ≠ 0)) = l := by
        conv => rhs; rw [← List.map_id l]
        exact List.map_congr_left (fun s hs => cstr_plain (hp s hs))
      simp only [elements_full h, Option.map_some, h2, ← full_eq h]

/-- Some that do. -/
theorem c101_example : Sendable (.known (.strArr ⟨[true, true], [[65, 66], []]⟩)) ∧ Sendable (.known (.realArr ⟨[true], [7]⟩)) ∧
    transmitted (.known (.strArr ⟨[true, true], [[65, 66], []]⟩)) = some (.known (.strArr ⟨[true, true], [[65, 66], []]⟩)) := by
  refine ⟨.strArr _ [[65, 66], []] ⟨rfl, rfl⟩ (by simp [Plain]), .realArr _ [7] ⟨rfl, rfl⟩, by decide +kernel⟩

/-- **C101**, what is missing: values that do not arrive at all — command handles, states, outcomes, failure types, and arrays with an unknown element. -/
theorem c101_lost (x : Byte) (a : Arr I32) (b : Arr Str) (ha : a.WF) (hb : b.WF) (h1 : ∃ i < a.size, a.known[i]? = some false) (h2 : ∃ i < b.size, b.known[i]? = some false) :
    transmitted (.known (.handle x)) = none ∧ transmitted (.known (.nodeState x)) = none ∧ transmitted (.known (.outcome x)) = none ∧
    transmitted (.known (.failure x)) = none ∧ transmitted (.known (.intArr a)) = none ∧ transmitted (.known (.strArr b)) = none := by
  refine ⟨rfl, rfl, rfl, rfl, ?_, ?_⟩
  · rw [transmitted_eq]; simp only [(elements_none ha).2 h1, Option.map_none]
  · rw [transmitted_eq]; simp only [(elements_none hb).2 h2, Option.map_none]

/-- Values that arrive as something else: a string is cut at its first zero byte, and an unknown value loses its type. -/
theorem c101_changed (s t : Str) (hs : Plain s) (ty : VType) :
    transmitted (.known (.str (s ++ 0 :: t))) = some (.known (.str s)) ∧ transmitted (.unknown ty) = some (.unknown .unknownT) := by
  refine ⟨?_, rfl⟩
  rw [transmitted_eq]
  have h : (s ++ 0 :: t).takeWhile (fun b => b ≠ 0) = s := by
    have hp := cstr_plain hs
    unfold cstr at hp
    rw [List.takeWhile_append, hp]
    simp
  simp only [h]

/-! ### Labels and names -/

theorem decimal_num (n : Nat) : Num 10 (decimal n) n := by
  by_cases hn : n = 0
  · subst hn; exact .one (.inl rfl) (by omega)
  · exact (Verif.Text.dec_num n hn).1

theorem decimal_digits (n : Nat) : decimal n ≠ [] ∧ ∀ c ∈ decimal n, isDigit 10 c = true :=
  ⟨((Verif.Text.num_iff 10 (by omega) _ _).1 (decimal_num n)).1, ((Verif.Text.num_iff 10 (by omega) _ _).1 (decimal_num n)).2.1⟩

theorem decimal_inj {m n : Nat} (h : decimal m = decimal n) : m = n := by
  have h1 := ((Verif.Text.num_iff 10 (by omega) _ _).1 (decimal_num m)).2.2
  have h2 := ((Verif.Text.num_iff 10 (by omega) _ _).1 (decimal_num n)).2.2
  rw [h1, h2, h]

theorem digit_ne {c d : Char} (h : isDigit 10 c = true) (hd : isDigit 10 d = false) : c ≠ d := by
  rintro rfl; rw [h] at hd; cases hd

theorem atoi_print (i : Int) (h1 : -2 ^ 31 ≤ i) (h2 : i < 2 ^ 31) : atoi (printInteger i) = i := by
  obtain ⟨hne, hdig⟩ := decimal_digits i.natAbs
  have hscan : scanDigits 10 (decimal i.natAbs) 0 = (i.natAbs, []) := (Verif.Text.scan_full (by omega) hne).2 (decimal_num _)
  obtain ⟨c, r, hc⟩ := List.exists_cons_of_ne_nil hne
  have hd := hdig c (by simp [hc])
  obtain ⟨s1, s2, s3⟩ := Verif.Text.digit_not_special hd
  unfold printInteger
  split
  · rename_i hneg
    have e : strtol 10 ('-' :: decimal i.natAbs) = some (i, false, []) := by
      rw [hc] at hscan ⊢
      simp only [strtol, List.dropWhile_cons, show isSpace '-' = false from rfl, Bool.false_eq_true, if_false, Verif.Text.sign, Verif.Text.numBase, hd, if_true, hscan]
      rw [if_neg (by decide)]
      simp only [hd, if_true, hscan]
      rw [if_neg (by omega), if_neg (by omega)]
      rw [show -(i.natAbs : Int) = i by omega]
    simp only [atoi, e]
  · rename_i hpos
    have e : strtol 10 (decimal i.natAbs) = some (i, false, []) := by
      rw [hc] at hscan ⊢
      have hs : Verif.Text.sign (c :: r) = (false, c :: r) := by
        unfold Verif.Text.sign; split
        · rename_i h; simp at h; exact absurd h.1 s3
        · rename_i h; simp at h; exact absurd h.1 s2
        · rfl
      simp only [strtol, List.dropWhile_cons, s1, Bool.false_eq_true, if_false, hs, Verif.Text.numBase]
      rw [if_neg (by decide)]
      simp only [hd, if_true, hscan, Bool.false_eq_true, if_false]
      rw [if_neg (by omega), if_neg (by omega)]
      rw [show (i.natAbs : Int) = i by omega]
    simp only [atoi, e]

theorem print_no_colon (i : Int) : ':' ∉ printInteger i ∧ printInteger i ≠ [] := by
  obtain ⟨hne, hdig⟩ := decimal_digits i.natAbs
  unfold printInteger
  split
  · refine ⟨fun h => ?_, by simp⟩
    rcases List.mem_cons.1 h with h | h
    · simp at h
    · exact digit_ne (hdig _ h) (d := ':') (by decide) rfl
  · exact ⟨fun h => digit_ne (hdig _ h) (d := ':') (by decide) rfl, hne⟩

theorem findColon_eq (pre post : List Char) (h : ':' ∉ pre) : ∀ (i : Nat), findColon i (pre ++ ':' :: post) = some (i + pre.length) := by
  induction pre with
  | nil => intro i; simp [findColon]
  | cons c r ih =>
    intro i
    have hc : c ≠ ':' := fun e => h (by simp [e])
    simp only [List.cons_append, findColon, hc, if_false, ih (fun h' => h (by simp [h'])) (i + 1), List.length_cons]
    congr 1; omega

/-- **C102**, labels: a return value sent under the label of a received command goes to the sender of that command, and answers it, whatever the serial number (it is
printed as a signed number) and the identifier of the sender (it may contain colons). -/
theorem c102_label (serial : BitVec 32) (uid : List Char) : parseLabel (label serial uid) = some (serial, uid) := by
  obtain ⟨h1, h2⟩ := print_no_colon (asInt serial)
  obtain ⟨c, r, hc⟩ := List.exists_cons_of_ne_nil h2
  have hr : ':' ∉ r := fun h => h1 (by simp [hc, h])
  have hf : findColon 1 ((label serial uid).drop 1) = some (printInteger (asInt serial)).length := by
    rw [label, hc]
    show findColon 1 (r ++ ':' :: uid) = _
    rw [findColon_eq r uid hr 1, List.length_cons]; congr 1; omega
  have hb1 : -2 ^ 31 ≤ serial.toInt := by have := BitVec.le_toInt (x := serial); simpa using this
  have hb2 : serial.toInt < 2 ^ 31 := by have := BitVec.toInt_lt (x := serial); simpa using this
  simp only [parseLabel, hf]
  rw [label, List.take_left, show ∀ (l : List Char), (l ++ ':' :: uid).drop (l.length + 1) = uid from fun l => by simp [List.drop_append]]
  rw [atoi_print (asInt serial) hb1 hb2]
  simp [asInt]

/-- Two commands have the same label only if they are of the same sender and have the same number. -/
theorem c102_label_unique (s1 s2 : BitVec 32) (u1 u2 : List Char) (h : label s1 u1 = label s2 u2) : s1 = s2 ∧ u1 = u2 := by
  have h1 := c102_label s1 u1
  rw [h, c102_label s2 u2] at h1
  simp only [Option.some.injEq, Prod.mk.injEq] at h1
  exact ⟨h1.1.symm, h1.2.symm⟩

theorem split_last {c : Char} {a b d e : List Char} (hd : c ∉ d) (he : c ∉ e) (h : a ++ c :: d = b ++ c :: e) : a = b ∧ d = e := by
  have hr := congrArg List.reverse h
  simp only [List.reverse_append, List.reverse_cons, List.append_assoc, List.singleton_append] at hr
  have key : ∀ (x y p q : List Char), c ∉ x → c ∉ y → x ++ c :: p = y ++ c :: q → p = q ∧ x = y := by
    intro x
    induction x with
    | nil =>
      intro y p q _ hy h
      cases y with
      | nil => simpa using h
      | cons z y => simp at h; exact absurd (by simp [h.1]) hy
    | cons w x ih =>
      intro y p q hx hy h
      cases y with
      | nil => simp at h; exact absurd (by simp [h.1]) hx
      | cons z y =>
        simp only [List.cons_append, List.cons.injEq] at h
        obtain ⟨h1, h2⟩ := ih y p q (fun h' => hx (by simp [h'])) (fun h' => hy (by simp [h'])) h.2
        exact ⟨h1, by rw [h.1, h2]⟩
  obtain ⟨h1, h2⟩ := key _ _ _ _ (by simpa using hd) (by simpa using he) hr
  exact ⟨by simpa using h1, by simpa using h2⟩

theorem decimal_no_underscore (n : Nat) : '_' ∉ decimal n := fun h => digit_ne ((decimal_digits n).2 _ h) (d := '_') (by decide) rfl

/-- The text of a plain message that does not look like the name of a queue of commands or parameters. -/
def Ordinary : Wanted → Prop
  | .message s => ¬ "__COMMAND__".toList <+: s ∧ ¬ "__PARAMETER__".toList <+: s
  | _ => True

/-- **C102**, names: different messages, commands and parameters are kept in different queues, unless the text of a message begins with one of the two prefixes. -/
theorem c102_names_partial (v w : Wanted) (hv : Ordinary v) (hw : Ordinary w) (h : queueName v = queueName w) : v = w := by
  have cp : ∀ (n l : List Char) (i : Nat), queueName (.command n) ≠ queueName (.parameter l i) := by
    intro n l i e
    have e1 : ("__COMMAND__".toList ++ n ++ '_' :: decimal 0).take 3 = ("__PARAMETER__".toList ++ l ++ '_' :: decimal i).take 3 := congrArg (List.take 3) e
    rw [List.append_assoc, List.append_assoc, List.take_append_of_le_length (by decide), List.take_append_of_le_length (by decide)] at e1
    exact absurd e1 (by decide)
  cases v with
  | message s =>
    cases w with
    | message t =>
      have e : s = t := h
      rw [e]
    | command n => exact absurd ⟨n ++ '_' :: decimal 0, ((show s = _ from h).trans (List.append_assoc _ _ _)).symm⟩ hv.1
    | parameter l i => exact absurd ⟨l ++ '_' :: decimal i, ((show s = _ from h).trans (List.append_assoc _ _ _)).symm⟩ hv.2
  | command n =>
    cases w with
    | message t => exact absurd ⟨n ++ '_' :: decimal 0, ((show t = _ from h.symm).trans (List.append_assoc _ _ _)).symm⟩ hw.1
    | command m =>
      have e : ("__COMMAND__".toList ++ n) ++ '_' :: decimal 0 = ("__COMMAND__".toList ++ m) ++ '_' :: decimal 0 := h
      have := (split_last (decimal_no_underscore 0) (decimal_no_underscore 0) e).1
      rw [List.append_cancel_left this]
    | parameter l i => exact absurd h (cp n l i)
  | parameter l i =>
    cases w with
    | message t => exact absurd ⟨l ++ '_' :: decimal i, ((show t = _ from h.symm).trans (List.append_assoc _ _ _)).symm⟩ hw.2
    | command n => exact absurd h.symm (cp n l i)
    | parameter k j =>
      have e : ("__PARAMETER__".toList ++ l) ++ '_' :: decimal i = ("__PARAMETER__".toList ++ k) ++ '_' :: decimal j := h
      obtain ⟨h1, h2⟩ := split_last (decimal_no_underscore i) (decimal_no_underscore j) e
      rw [List.append_cancel_left h1, decimal_inj h2]

/-- Names as they are. -/
theorem c102_example : queueName (.parameter (label 4294967295 "a:b".toList) 1) = "__PARAMETER__-1:a:b_1".toList ∧ queueName (.command "go".toList) = "__COMMAND__go_0".toList := by
  decide +kernel

/-- **C102**, what is missing: a message whose text is the name of the queue of a command is received as that command, its text being the label. -/
theorem c102_message_as_command (n : List Char) : ∃ (s : List Char), queueName (.message s) = queueName (.command n) ∧ Wanted.message s ≠ .command n :=
  ⟨queueName (.command n), rfl, by simp⟩

end Verif.Ipc
