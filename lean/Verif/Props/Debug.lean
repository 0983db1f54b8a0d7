import Verif.Debug.Model
/-
C130: which debug messages are printed.
-/
set_option autoImplicit false
namespace Verif.Debug

/-- The pattern occurs in the marker. -/
def Occurs (p m : List Char) : Prop := ∃ a b, m = a ++ p ++ b

/-- The patterns an event gives. -/
def Ev.gives : Ev → List (List Char)
  | .create _ => []
  | .enable p => [p]
  | .read ls => ls.filterMap linePattern

/-- The markers of the statements executed, the latest first. -/
def markers : List Ev → List (List Char)
  | [] => []
  | .create m :: es => markers es ++ [m]
  | _ :: es => markers es

theorem strstr_iff (p : List Char) : ∀ m : List Char, strstr p m = true ↔ Occurs p m
  | [] => by
    simp only [strstr, List.isPrefixOf_iff_prefix]
    constructor
    · rintro ⟨b, hb⟩; exact ⟨[], b, hb.symm⟩
    · rintro ⟨a, b, h⟩
      cases a with
      | nil => exact ⟨b, h.symm⟩
      | cons x a => cases h
  | c :: cs => by
    simp only [strstr, Bool.or_eq_true, List.isPrefixOf_iff_prefix]
    rw [strstr_iff p cs]
    constructor
    · rintro (⟨b, hb⟩ | ⟨a, b, rfl⟩)
      · exact ⟨[], b, hb.symm⟩
      · exact ⟨c :: a, b, rfl⟩
    · rintro ⟨a, b, h⟩
      cases a with
      | nil => exact .inl ⟨b, h.symm⟩
      | cons x a =>
        injection h with h1 h2
        exact .inr ⟨a, b, h2⟩

/-- Invariant: a message is enabled if and only if a pattern occurs in its marker. -/
def Right (s : Sys) : Prop := ∀ m ∈ s.msgs, m.enabled = s.matches m.marker

theorem right_enable {s : Sys} (h : Right s) (p : List Char) : Right (s.enable p) := by
  intro m hm
  obtain ⟨m0, h0, rfl⟩ := List.mem_map.mp hm
  have hr := h m0 h0
  have e : ∀ x, (s.enable p).matches x = (s.matches x || strstr p x) := by
    intro x; simp [Sys.matches, Sys.enable]
  cases hs : strstr p m0.marker <;> cases he : m0.enabled <;> simp [e, hs, he] <;> rw [← hr, he]

theorem markers_enable (s : Sys) (p : List Char) : (s.enable p).msgs.map Msg.marker = s.msgs.map Msg.marker := by
  simp only [Sys.enable, List.map_map]
  apply List.map_congr_left
  intro m _
  simp only [Function.comp]
  split <;> rfl

theorem foldl_enable (ps : List (List Char)) : ∀ (s : Sys), (ps.foldl Sys.enable s).patterns = s.patterns ++ ps ∧
    (ps.foldl Sys.enable s).msgs.map Msg.marker = s.msgs.map Msg.marker ∧ (Right s → Right (ps.foldl Sys.enable s)) := by
  induction ps with
  | nil => intro s; exact ⟨by simp, rfl, fun h => h⟩
  | cons p ps ih =>
    intro s
    obtain ⟨h1, h2, h3⟩ := ih (s.enable p)
    exact ⟨by rw [List.foldl_cons, h1]; simp [Sys.enable], by rw [List.foldl_cons, h2, markers_enable], fun h => h3 (right_enable h p)⟩

theorem run_inv (es : List Ev) : ∀ (s : Sys), Right s → Right (es.foldl Sys.step s) ∧ (es.foldl Sys.step s).patterns = s.patterns ++ es.flatMap Ev.gives ∧
    (es.foldl Sys.step s).msgs.map Msg.marker = markers es ++ s.msgs.map Msg.marker := by
  induction es with
  | nil => intro s h; exact ⟨h, by simp, rfl⟩
  | cons e es ih =>
    intro s h
    have key : Right (s.step e) ∧ (s.step e).patterns = s.patterns ++ e.gives ∧ markers es ++ (s.step e).msgs.map Msg.marker = markers (e :: es) ++ s.msgs.map Msg.marker := by
      cases e with
      | create m =>
        refine ⟨?_, by simp [Sys.step, Sys.create, Ev.gives], by simp [Sys.step, Sys.create, markers]⟩
        intro x hx
        rcases List.mem_cons.mp hx with rfl | hx
        · rfl
        · exact h x hx
      | enable p => exact ⟨right_enable h p, rfl, by simp only [Sys.step, markers_enable, markers]⟩
      | read ls =>
        obtain ⟨h1, h2, h3⟩ := foldl_enable (ls.filterMap linePattern) s
        exact ⟨h3 h, h1, by simp only [Sys.step, Sys.read, h2, markers]⟩
    obtain ⟨k1, k2, k3⟩ := ih (s.step e) key.1
    exact ⟨k1, by rw [List.foldl_cons, k2, key.2.1]; simp, by rw [List.foldl_cons, k3, key.2.2]⟩

/-- **C130.** A debug statement that has been executed prints if and only if one of the patterns given so far, before or after the statement was first executed, occurs in its marker. -/
theorem c130_enabled (es : List Ev) : (run es).msgs.map Msg.marker = markers es ∧
    ∀ m ∈ (run es).msgs, (m.enabled = true ↔ ∃ e ∈ es, ∃ p ∈ e.gives, Occurs p m.marker) := by
  obtain ⟨h1, h2, h3⟩ := run_inv es ⟨[], []⟩ (by intro m hm; cases hm)
  refine ⟨by simpa [run] using h3, fun m hm => ?_⟩
  rw [h1 m hm, Sys.matches, List.any_eq_true, h2]
  simp only [List.nil_append, List.mem_flatMap]
  constructor
  · rintro ⟨p, ⟨e, he, hp⟩, ho⟩; exact ⟨e, he, p, hp, (strstr_iff p _).mp ho⟩
  · rintro ⟨e, he, p, hp, ho⟩; exact ⟨p, ⟨e, he, hp⟩, (strstr_iff p _).mpr ho⟩

/-- Only blanks. -/
def Blank (s : List Char) : Prop := ∀ c ∈ s, c ∈ [' ', '\x0c', '\n', '\r', '\t', '\x0b']

/-- Nothing, or a comment. -/
def Comment (s : List Char) : Prop := s = [] ∨ ∃ r, s = '#' :: r ∨ s = '/' :: r

/-- A pattern: at least one character, no comment in it, no blank at its ends, no colon in front. -/
structure Plain (p : List Char) : Prop where
  head : ∃ c r, p = c :: r ∧ c ∉ [' ', '\x0c', '\n', '\r', '\t', '\x0b'] ∧ c ≠ ':'
  last : ∃ r c, p = r ++ [c] ∧ c ∉ [' ', '\x0c', '\n', '\r', '\t', '\x0b']
  clean : ∀ c ∈ p, c ≠ '#' ∧ c ≠ '/'

theorem white_iff (c : Char) : white c = true ↔ c ∈ [' ', '\x0c', '\n', '\r', '\t', '\x0b'] := by simp [white]
theorem white_false {c : Char} (h : c ∉ [' ', '\x0c', '\n', '\r', '\t', '\x0b']) : white c = false := by
  cases e : white c with
  | false => rfl
  | true => exact absurd ((white_iff c).mp e) h

theorem drop_blank {bl r : List Char} (h : Blank bl) : (bl ++ r).dropWhile white = r.dropWhile white :=
  List.dropWhile_append_of_pos fun c hc => (white_iff c).mpr (h c hc)

/-- Text without comments, blanks, comment: what is read is the text. -/
theorem take_text {p bl cm : List Char} (hc : ∀ c ∈ p, c ≠ '#' ∧ c ≠ '/') (hl : ∃ r c, p = r ++ [c] ∧ c ∉ [' ', '\x0c', '\n', '\r', '\t', '\x0b']) (hb : Blank bl) (hm : Comment cm) :
    (((p ++ bl ++ cm).takeWhile fun c => !comment c).reverse.dropWhile white).reverse = p := by
  have hcom : ∀ c, (c ≠ '#' ∧ c ≠ '/') → (!comment c) = true := by intro c h; simp [comment, h]
  have h1 : ((p ++ bl ++ cm).takeWhile fun c => !comment c) = p ++ bl := by
    rw [List.takeWhile_append_of_pos]
    · have : (cm.takeWhile fun c => !comment c) = [] := by
        rcases hm with rfl | ⟨r, rfl | rfl⟩ <;> rfl
      rw [this, List.append_nil]
    · intro c hm
      rcases List.mem_append.mp hm with h | h
      · exact hcom c (hc c h)
      · have := hb c h
        apply hcom
        constructor <;> rintro rfl <;> simp at this
  rw [h1, List.reverse_append, drop_blank (by intro c hc; exact hb c (by simpa using hc))]
  obtain ⟨r, c, rfl, hw⟩ := hl
  rw [List.reverse_append, List.reverse_singleton, List.singleton_append, List.dropWhile_cons_of_neg (by simp [white_false hw])]
  simp

/-- **C130, lines.** A line of a configuration with a pattern, with or without a colon in front, with blanks and a comment around it, gives this pattern; a line of blanks, or a comment, gives none. -/
theorem c130_line (bl bl' p cm : List Char) (h1 : Blank bl) (h2 : Blank bl') (hp : Plain p) (hc : Comment cm) :
    linePattern (bl ++ p ++ bl' ++ cm) = some p ∧ linePattern (bl ++ ':' :: p ++ bl' ++ cm) = some p ∧ linePattern (bl ++ cm) = none := by
  obtain ⟨c, r, rfl, hw, hn⟩ := hp.head
  have hcc : comment c = false := by
    have := hp.clean c (by simp)
    simp [comment, this]
  refine ⟨?_, ?_, ?_⟩
  · have e : (bl ++ c :: r ++ bl' ++ cm).dropWhile white = c :: (r ++ bl' ++ cm) := by
      rw [List.append_assoc, List.append_assoc, drop_blank h1, List.cons_append, List.dropWhile_cons_of_neg (by simp [white_false hw])]
      simp
    unfold linePattern
    rw [e]
    simp only [hcc, Bool.false_eq_true, if_false, if_neg hn]
    have := take_text hp.clean hp.last h2 hc
    simp only [List.cons_append] at this
    rw [this]
  · have e : (bl ++ ':' :: c :: r ++ bl' ++ cm).dropWhile white = ':' :: (c :: r ++ bl' ++ cm) := by
      rw [List.append_assoc, List.append_assoc, drop_blank h1, List.cons_append, List.dropWhile_cons_of_neg (by decide)]
      simp
    unfold linePattern
    rw [e]
    have hcol : comment ':' = false := by decide
    simp only [hcol, Bool.false_eq_true, if_false, if_true]
    have := take_text (p := ':' :: c :: r) (by
      intro x hx
      rcases List.mem_cons.mp hx with rfl | hx
      · decide
      · exact hp.clean x hx) (by
      obtain ⟨q, x, hq, hx⟩ := hp.last
      exact ⟨':' :: q, x, by rw [hq]; rfl, hx⟩) h2 hc
    simp only [List.cons_append] at this ⊢
    rw [this]
    rfl
  · unfold linePattern
    rw [drop_blank h1]
    rcases hc with rfl | ⟨q, rfl | rfl⟩ <;> rfl

/-- **C130 is false of a line with a colon only** (blanks and comments around it make no difference): it gives the empty pattern, and all messages are printed. -/
theorem c130_colon_refuted (bl bl' cm : List Char) (h1 : Blank bl) (h2 : Blank bl') (hc : Comment cm) (es : List Ev) (lines : List (List Char))
    (hl : bl ++ ':' :: bl' ++ cm ∈ lines) (he : Ev.read lines ∈ es) : ∀ m ∈ (run es).msgs, m.enabled = true := by
  have e : linePattern (bl ++ ':' :: bl' ++ cm) = some [] := by
    have e : (bl ++ ':' :: bl' ++ cm).dropWhile white = ':' :: (bl' ++ cm) := by
      rw [List.append_assoc, drop_blank h1, List.cons_append, List.dropWhile_cons_of_neg (by decide)]
    unfold linePattern
    rw [e]
    have hcol : comment ':' = false := by decide
    simp only [hcol, Bool.false_eq_true, if_false, if_true]
    have := take_text (p := [':']) (by intro x hx; rw [List.mem_singleton] at hx; subst hx; decide) ⟨[], ':', rfl, by decide⟩ h2 hc
    simp only [List.cons_append, List.nil_append] at this
    rw [this]
    rfl
  intro m hm
  exact ((c130_enabled es).2 m hm).mpr ⟨_, he, [], List.mem_filterMap.mpr ⟨_, hl, e⟩, [], m.marker, rfl⟩

/-- `Node:transition` given before, `Exec` after the first execution; the other one is not printed. -/
example : (run [.read ["  :Node:trans  # transitions".toList, "# all".toList, "".toList], .create "Node:transition".toList, .create "PlexilExec:step".toList, .create "Test:x".toList,
    .enable "Exec".toList]).msgs = [⟨"Test:x".toList, false⟩, ⟨"PlexilExec:step".toList, true⟩, ⟨"Node:transition".toList, true⟩] := by decide

example : Plain "Node:trans".toList := ⟨⟨'N', "ode:trans".toList, rfl, by decide, by decide⟩, ⟨"Node:tran".toList, 's', rfl, by decide⟩, by decide⟩

end Verif.Debug
