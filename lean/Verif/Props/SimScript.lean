import Verif.SimScript.Model
/-
C141: the simulator's script.
-/
set_option autoImplicit false
set_option linter.unusedSimpArgs false
set_option linter.unusedTactic false
set_option linter.unreachableTactic false
namespace Verif.SimScript
open Verif.Text (VT parseType)

/-! ## Specification -/

variable {τ β : Type} (R : Reader τ β)

/-- How the lines of a script are understood: with declarations, those made so far; or in the old way, telemetry or responses to commands, all values being Real. -/
inductive Mode where
  | declared (t : Table)
  | old (telemetry : Bool)

/-- The name of something in a script with declarations: not one of the other words a line can start with. -/
def Plain (n : String) : Prop := n ≠ "BEGIN_TELEMETRY" ∧ n ≠ "BEGIN_COMMANDS" ∧ n ≠ "Command" ∧ parseType n = .unknown

/-- What the first part of a script means, and how the rest is to be understood. The part is a sequence of lines (comments and blank lines left out): declarations of the type of a lookup or command, each name once; entries, which take two lines, the second being the value; and lines starting telemetry or responses in
the old way. A script without declarations is one in the old way. -/
inductive Part : Mode → List Line → List (Effect τ β) → Mode → List Line → Prop where
  | nil (m : Mode) (c : List Line) : Part m c [] m c
  | telemetry (m : Mode) (l : Line) (ls : List Line) (es : List (Effect τ β)) (m' : Mode) (c' : List Line) (extra : List String) :
      words l = "BEGIN_TELEMETRY" :: extra → Part (.old true) ls es m' c' → Part m (l :: ls) es m' c'
  | commands (m : Mode) (l : Line) (ls : List Line) (es : List (Effect τ β)) (m' : Mode) (c' : List Line) (extra : List String) :
      words l = "BEGIN_COMMANDS" :: extra → Part (.old false) ls es m' c' → Part m (l :: ls) es m' c'
  | lookup (t : Table) (l : Line) (ls : List Line) (es : List (Effect τ β)) (m' : Mode) (c' : List Line) (ty n : String) (extra : List String) :
      words l = ty :: "Lookup" :: n :: extra → parseType ty ≠ .unknown → t.get n = none →
      Part (.declared ((n, ⟨true, parseType ty⟩) :: t)) ls es m' c' → Part (.declared t) (l :: ls) es m' c'
  | command (t : Table) (l : Line) (ls : List Line) (es : List (Effect τ β)) (m' : Mode) (c' : List Line) (ty n : String) (extra : List String) :
      words l = ty :: "Command" :: n :: extra → parseType ty ≠ .unknown → t.get n = none →
      Part (.declared ((n, ⟨false, parseType ty⟩) :: t)) ls es m' c' → Part (.declared t) (l :: ls) es m' c'
  | procedure (t : Table) (l : Line) (ls : List Line) (es : List (Effect τ β)) (m' : Mode) (c' : List Line) (n : String) (extra : List String) :
      words l = "Command" :: n :: extra → t.get n = none →
      Part (.declared ((n, ⟨false, .unknown⟩) :: t)) ls es m' c' → Part (.declared t) (l :: ls) es m' c'
  | tel (t : Table) (l v : Line) (ls : List Line) (es : List (Effect τ β)) (m' : Mode) (c' : List Line) (n : String) (rest : List String) (ty : VT) (d : τ) :
      words l = n :: rest → Plain n → t.get n = some ⟨true, ty⟩ → R.tel rest = some d →
      Part (.declared t) ls es m' c' → Part (.declared t) (l :: v :: ls) (.tel n d (R.val ty v) :: es) m' c'
  | cmd (t : Table) (l v : Line) (ls : List Line) (es : List (Effect τ β)) (m' : Mode) (c' : List Line) (n : String) (rest : List String) (ty : VT) (i k : Nat) (d : τ) :
      words l = n :: rest → Plain n → t.get n = some ⟨false, ty⟩ → R.cmd rest = some (i, k, d) →
      Part (.declared t) ls es m' c' → Part (.declared t) (l :: v :: ls) (.cmd n i k d (R.val ty v) :: es) m' c'
  | first (l v : Line) (ls : List Line) (es : List (Effect τ β)) (m' : Mode) (c' : List Line) (n : String) (rest : List String) (i k : Nat) (d : τ) :
      words l = n :: rest → Plain n → R.cmd rest = some (i, k, d) →
      Part (.old false) ls es m' c' → Part (.declared []) (l :: v :: ls) (.cmd n i k d (R.val .real v) :: es) m' c'
  | oldTel (l v : Line) (ls : List Line) (es : List (Effect τ β)) (m' : Mode) (c' : List Line) (n : String) (rest : List String) (d : τ) :
      words l = n :: rest → n ≠ "BEGIN_TELEMETRY" → n ≠ "BEGIN_COMMANDS" → R.tel rest = some d →
      Part (.old true) ls es m' c' → Part (.old true) (l :: v :: ls) (.tel n d (R.val .real v) :: es) m' c'
  | oldCmd (l v : Line) (ls : List Line) (es : List (Effect τ β)) (m' : Mode) (c' : List Line) (n : String) (rest : List String) (i k : Nat) (d : τ) :
      words l = n :: rest → n ≠ "BEGIN_TELEMETRY" → n ≠ "BEGIN_COMMANDS" → R.cmd rest = some (i, k, d) →
      Part (.old false) ls es m' c' → Part (.old false) (l :: v :: ls) (.cmd n i k d (R.val .real v) :: es) m' c'

/-- A script: a part with nothing left. -/
def Script (m : Mode) (c : List Line) (es : List (Effect τ β)) : Prop := ∃ m', Part R m c es m' []

/-- A line that is no part of a script with declarations: it declares again a name that is declared; it has a type and then another word than `Lookup` or `Command`, or none; or, something having been declared, it begins with a name that is not. -/
inductive Wrong (t : Table) (l : Line) : Prop where
  | lookup (ty n : String) (extra : List String) : words l = ty :: "Lookup" :: n :: extra → parseType ty ≠ .unknown → t.get n ≠ none → Wrong t l
  | command (ty n : String) (extra : List String) : words l = ty :: "Command" :: n :: extra → parseType ty ≠ .unknown → t.get n ≠ none → Wrong t l
  | procedure (n : String) (extra : List String) : words l = "Command" :: n :: extra → t.get n ≠ none → Wrong t l
  | kind (ty w : String) (extra : List String) : words l = ty :: w :: extra → parseType ty ≠ .unknown → w ≠ "Lookup" → w ≠ "Command" → Wrong t l
  | alone (ty : String) : words l = [ty] → parseType ty ≠ .unknown → Wrong t l
  | name (n : String) (rest : List String) : words l = n :: rest → Plain n → t ≠ [] → t.get n = none → Wrong t l

/-- The lines that count: not empty or blank, and beginning with a letter or digit. -/
def File.content (f : File) : List Line := f.lines.filter fun l => !ignored l

/-- There is nothing after the last newline, and nothing was read. -/
def File.Fresh (f : File) : Prop := f.eof = false ∧ words f.last = []

/-! ## Proofs -/

private theorem nextLine_nil {last : Line} : ∀ {ls : List Line}, (ls.filter fun l => !ignored l) = [] → nextLine last ls = (last, ⟨[], [], true⟩)
  | [], _ => rfl
  | l :: ls, h => by
    cases hi : ignored l <;> simp [hi] at h
    rw [nextLine, hi, if_pos rfl]
    exact nextLine_nil (by simpa using h)

private theorem nextLine_cons {last l : Line} {c : List Line} : ∀ {ls : List Line}, (ls.filter fun l => !ignored l) = l :: c →
    ∃ ls', nextLine last ls = (l, ⟨ls', last, false⟩) ∧ (ls'.filter fun l => !ignored l) = c ∧ ls'.length < ls.length
  | [], h => by simp at h
  | x :: ls, h => by
    cases hi : ignored x
    · simp [hi] at h
      obtain ⟨rfl, h⟩ := h
      exact ⟨ls, by rw [nextLine, hi]; rfl, by simpa using h, by simp⟩
    · simp [hi] at h
      obtain ⟨ls', h1, h2, h3⟩ := nextLine_cons (last := last) (ls := ls) (l := l) (c := c) (by simpa using h)
      exact ⟨ls', by rw [nextLine, hi, if_pos rfl, h1], h2, by simp; omega⟩

/-- The state of the reader that a mode stands for. -/
private def Fits (s : St τ β) : Mode → Prop
  | .declared t => s.compat = false ∧ s.telemetry = false ∧ s.table = t
  | .old b => s.compat = true ∧ s.telemetry = b

variable {R}

/-- One effect more. -/
private theorem grow {n : Nat} {s s0 : St τ β} {f : File} {m' : Mode} {c' : List Line} {e : Effect τ β} {es : List (Effect τ β)}
    (h : ∃ (k : Nat) (s' : St τ β) (f' : File), loop R n s f = loop R k s' f' ∧ f'.Fresh ∧ f'.content = c' ∧ f'.lines.length < k ∧ Fits s' m' ∧ s'.effects = s.effects ++ es)
    (he : s.effects = s0.effects ++ [e]) :
    ∃ (k : Nat) (s' : St τ β) (f' : File), loop R n s f = loop R k s' f' ∧ f'.Fresh ∧ f'.content = c' ∧ f'.lines.length < k ∧ Fits s' m' ∧ s'.effects = s0.effects ++ e :: es := by
  obtain ⟨k, s', f', i1, i2, i3, i4, i5, i6⟩ := h
  exact ⟨k, s', f', i1, i2, i3, i4, i5, by rw [i6, he]; simp⟩

private theorem loop_script {m m' : Mode} {c c' : List Line} {es : List (Effect τ β)} (h : Part R m c es m' c') :
    ∀ (n : Nat) (s : St τ β) (f : File), f.Fresh → f.content = c → f.lines.length < n → Fits s m →
      ∃ (k : Nat) (s' : St τ β) (f' : File), loop R n s f = loop R k s' f' ∧ f'.Fresh ∧ f'.content = c' ∧ f'.lines.length < k ∧ Fits s' m' ∧ s'.effects = s.effects ++ es := by
  induction h with
  | nil m c =>
    intro n s f hf hc hn hs
    exact ⟨n, s, f, rfl, hf, hc, hn, hs, by simp⟩
  | telemetry m l ls es m' c' extra hw _ ih =>
    intro n s f hf hc hn hs
    obtain ⟨n, rfl⟩ : ∃ k, n = k + 1 := ⟨n - 1, by omega⟩
    obtain ⟨ls', h1, h2, h3⟩ := nextLine_cons (last := f.last) hc
    have h0 : getLine f = (l, ⟨ls', f.last, false⟩) := by rw [getLine, hf.1]; exact h1
    simp only [loop, hf.1, h0, hw, turn, Bool.false_eq_true, if_false, if_true]
    exact ih n _ _ ⟨rfl, hf.2⟩ h2 (by show ls'.length < n; omega) ⟨rfl, rfl⟩
  | commands m l ls es m' c' extra hw _ ih =>
    intro n s f hf hc hn hs
    obtain ⟨n, rfl⟩ : ∃ k, n = k + 1 := ⟨n - 1, by omega⟩
    obtain ⟨ls', h1, h2, h3⟩ := nextLine_cons (last := f.last) hc
    have h0 : getLine f = (l, ⟨ls', f.last, false⟩) := by rw [getLine, hf.1]; exact h1
    simp only [loop, hf.1, h0, hw, turn, Bool.false_eq_true, if_false, if_true, String.reduceEq]
    exact ih n _ _ ⟨rfl, hf.2⟩ h2 (by show ls'.length < n; omega) ⟨rfl, rfl⟩
  | lookup t l ls es m' c' ty nm extra hw ht hg _ ih =>
    intro n s f hf hc hn hs
    obtain ⟨n, rfl⟩ : ∃ k, n = k + 1 := ⟨n - 1, by omega⟩
    obtain ⟨ls', h1, h2, h3⟩ := nextLine_cons (last := f.last) hc
    have h0 : getLine f = (l, ⟨ls', f.last, false⟩) := by rw [getLine, hf.1]; exact h1
    obtain ⟨e1, e2, rfl⟩ := hs
    have k1 : ty ≠ "BEGIN_TELEMETRY" := by rintro rfl; exact ht (by decide)
    have k2 : ty ≠ "BEGIN_COMMANDS" := by rintro rfl; exact ht (by decide)
    simp only [loop, hf.1, h0, hw, turn, Bool.false_eq_true, if_false, if_true, k1, k2, e1, ne_eq, ht, not_false_eq_true, declaration, String.reduceEq, declare, List.headD_cons, hg, Option.isSome_none, not_true_eq_false]
    exact ih n _ ⟨ls', f.last, false⟩ ⟨rfl, hf.2⟩ h2 (by show ls'.length < n; omega) ⟨by first | rfl | exact e1, by first | exact e2 | rfl, rfl⟩
  | command t l ls es m' c' ty nm extra hw ht hg _ ih =>
    intro n s f hf hc hn hs
    obtain ⟨n, rfl⟩ : ∃ k, n = k + 1 := ⟨n - 1, by omega⟩
    obtain ⟨ls', h1, h2, h3⟩ := nextLine_cons (last := f.last) hc
    have h0 : getLine f = (l, ⟨ls', f.last, false⟩) := by rw [getLine, hf.1]; exact h1
    obtain ⟨e1, e2, rfl⟩ := hs
    have k1 : ty ≠ "BEGIN_TELEMETRY" := by rintro rfl; exact ht (by decide)
    have k2 : ty ≠ "BEGIN_COMMANDS" := by rintro rfl; exact ht (by decide)
    simp only [loop, hf.1, h0, hw, turn, Bool.false_eq_true, if_false, if_true, k1, k2, e1, ne_eq, ht, not_false_eq_true, declaration, commandDecl, String.reduceEq, declare, List.headD_cons, hg, Option.isSome_none, not_true_eq_false]
    exact ih n _ ⟨ls', f.last, false⟩ ⟨rfl, hf.2⟩ h2 (by show ls'.length < n; omega) ⟨by first | rfl | exact e1, by first | exact e2 | rfl, rfl⟩
  | procedure t l ls es m' c' nm extra hw hg _ ih =>
    intro n s f hf hc hn hs
    obtain ⟨n, rfl⟩ : ∃ k, n = k + 1 := ⟨n - 1, by omega⟩
    obtain ⟨ls', h1, h2, h3⟩ := nextLine_cons (last := f.last) hc
    have h0 : getLine f = (l, ⟨ls', f.last, false⟩) := by rw [getLine, hf.1]; exact h1
    obtain ⟨e1, e2, rfl⟩ := hs
    have k3 : parseType "Command" = .unknown := by decide
    simp only [loop, hf.1, h0, hw, turn, Bool.false_eq_true, if_false, if_true, e1, ne_eq, k3, not_true_eq_false, commandDecl, String.reduceEq, declare, List.headD_cons, hg, Option.isSome_none]
    exact ih n _ ⟨ls', f.last, false⟩ ⟨rfl, hf.2⟩ h2 (by show ls'.length < n; omega) ⟨by first | rfl | exact e1, by first | exact e2 | rfl, rfl⟩
  | tel t l v ls es m' c' nm rest ty d hw hp hg hd _ ih =>
    intro n s f hf hc hn hs
    obtain ⟨n, rfl⟩ : ∃ k, n = k + 1 := ⟨n - 1, by omega⟩
    obtain ⟨ls', h1, h2, h3⟩ := nextLine_cons (last := f.last) hc
    obtain ⟨ls'', g1, g2, g3⟩ := nextLine_cons (last := f.last) h2
    have h0 : getLine f = (l, ⟨ls', f.last, false⟩) := by rw [getLine, hf.1]; exact h1
    have h0' : getLine ⟨ls', f.last, false⟩ = (v, ⟨ls'', f.last, false⟩) := by rw [getLine]; exact g1
    obtain ⟨e1, e2, rfl⟩ := hs
    obtain ⟨p1, p2, p3, p4⟩ := hp
    have hne : s.table ≠ [] := by intro h; rw [h] at hg; cases hg
    simp only [loop, hf.1, h0, hw, turn, Bool.false_eq_true, if_false, if_true, p1, p2, p3, p4, e1, ne_eq, not_true_eq_false, hne, false_and, hg, telemetryReturn, hd, entry, h0']
    refine grow ?_ rfl
    exact ih n _ ⟨ls'', f.last, false⟩ ⟨rfl, hf.2⟩ g2 (by show ls''.length < n; omega) ⟨by first | rfl | exact e1, by first | exact e2 | rfl, rfl⟩
  | cmd t l v ls es m' c' nm rest ty i k d hw hp hg hd _ ih =>
    intro n s f hf hc hn hs
    obtain ⟨n, rfl⟩ : ∃ k, n = k + 1 := ⟨n - 1, by omega⟩
    obtain ⟨ls', h1, h2, h3⟩ := nextLine_cons (last := f.last) hc
    obtain ⟨ls'', g1, g2, g3⟩ := nextLine_cons (last := f.last) h2
    have h0 : getLine f = (l, ⟨ls', f.last, false⟩) := by rw [getLine, hf.1]; exact h1
    have h0' : getLine ⟨ls', f.last, false⟩ = (v, ⟨ls'', f.last, false⟩) := by rw [getLine]; exact g1
    obtain ⟨e1, e2, rfl⟩ := hs
    obtain ⟨p1, p2, p3, p4⟩ := hp
    have hne : s.table ≠ [] := by intro h; rw [h] at hg; cases hg
    simp only [loop, hf.1, h0, hw, turn, Bool.false_eq_true, if_false, if_true, p1, p2, p3, p4, e1, ne_eq, not_true_eq_false, hne, false_and, hg, commandReturn, hd, entry, h0']
    refine grow ?_ rfl
    exact ih n _ ⟨ls'', f.last, false⟩ ⟨rfl, hf.2⟩ g2 (by show ls''.length < n; omega) ⟨by first | rfl | exact e1, by first | exact e2 | rfl, rfl⟩
  | first l v ls es m' c' nm rest i k d hw hp hd _ ih =>
    intro n s f hf hc hn hs
    obtain ⟨n, rfl⟩ : ∃ k, n = k + 1 := ⟨n - 1, by omega⟩
    obtain ⟨ls', h1, h2, h3⟩ := nextLine_cons (last := f.last) hc
    obtain ⟨ls'', g1, g2, g3⟩ := nextLine_cons (last := f.last) h2
    have h0 : getLine f = (l, ⟨ls', f.last, false⟩) := by rw [getLine, hf.1]; exact h1
    have h0' : getLine ⟨ls', f.last, false⟩ = (v, ⟨ls'', f.last, false⟩) := by rw [getLine]; exact g1
    obtain ⟨e1, e2, e3⟩ := hs
    obtain ⟨p1, p2, p3, p4⟩ := hp
    simp only [loop, hf.1, h0, hw, turn, Bool.false_eq_true, if_false, if_true, p1, p2, p3, p4, e1, e2, e3, ne_eq, not_true_eq_false, and_self, commandReturn, hd, entry, h0']
    refine grow ?_ rfl
    exact ih n _ ⟨ls'', f.last, false⟩ ⟨rfl, hf.2⟩ g2 (by show ls''.length < n; omega) ⟨by first | rfl | exact e1, by first | exact e2 | rfl⟩
  | oldTel l v ls es m' c' nm rest d hw p1 p2 hd _ ih =>
    intro n s f hf hc hn hs
    obtain ⟨n, rfl⟩ : ∃ k, n = k + 1 := ⟨n - 1, by omega⟩
    obtain ⟨ls', h1, h2, h3⟩ := nextLine_cons (last := f.last) hc
    obtain ⟨ls'', g1, g2, g3⟩ := nextLine_cons (last := f.last) h2
    have h0 : getLine f = (l, ⟨ls', f.last, false⟩) := by rw [getLine, hf.1]; exact h1
    have h0' : getLine ⟨ls', f.last, false⟩ = (v, ⟨ls'', f.last, false⟩) := by rw [getLine]; exact g1
    obtain ⟨e1, e2⟩ := hs
    simp only [loop, hf.1, h0, hw, turn, Bool.false_eq_true, if_false, if_true, p1, p2, e1, e2, telemetryReturn, hd, entry, h0']
    refine grow ?_ rfl
    exact ih n _ ⟨ls'', f.last, false⟩ ⟨rfl, hf.2⟩ g2 (by show ls''.length < n; omega) ⟨by first | rfl | exact e1, by first | exact e2 | rfl⟩
  | oldCmd l v ls es m' c' nm rest i k d hw p1 p2 hd _ ih =>
    intro n s f hf hc hn hs
    obtain ⟨n, rfl⟩ : ∃ k, n = k + 1 := ⟨n - 1, by omega⟩
    obtain ⟨ls', h1, h2, h3⟩ := nextLine_cons (last := f.last) hc
    obtain ⟨ls'', g1, g2, g3⟩ := nextLine_cons (last := f.last) h2
    have h0 : getLine f = (l, ⟨ls', f.last, false⟩) := by rw [getLine, hf.1]; exact h1
    have h0' : getLine ⟨ls', f.last, false⟩ = (v, ⟨ls'', f.last, false⟩) := by rw [getLine]; exact g1
    obtain ⟨e1, e2⟩ := hs
    simp only [loop, hf.1, h0, hw, turn, Bool.false_eq_true, if_false, if_true, p1, p2, e1, e2, commandReturn, hd, entry, h0']
    refine grow ?_ rfl
    exact ih n _ ⟨ls'', f.last, false⟩ ⟨rfl, hf.2⟩ g2 (by show ls''.length < n; omega) ⟨by first | rfl | exact e1, by first | exact e2 | rfl⟩

/-- **C141, what is read.** If the lines that count in a file that ends with a newline (or blanks) are a script, the file is accepted and exactly what the script says is scheduled, in its order. -/
theorem c141_reads_partial (telemetry : Bool) (f : File) (es : List (Effect τ β)) (hf : f.Fresh) (h : Script R (if telemetry then .old true else .declared []) f.content es) :
    readScript R telemetry f = (es, true) := by
  obtain ⟨m', h⟩ := h
  obtain ⟨k, s', f', i1, i2, i3, i4, -, i6⟩ := loop_script h (f.lines.length + 2) ⟨telemetry, telemetry, [], []⟩ f hf rfl (by omega) (by cases telemetry <;> exact ⟨rfl, by first | rfl | exact ⟨rfl, rfl⟩⟩)
  rw [readScript, i1]
  obtain ⟨k, rfl⟩ : ∃ j, k = j + 1 := ⟨k - 1, by omega⟩
  have h0 : getLine f' = (f'.last, ⟨[], [], true⟩) := by rw [getLine, i2.1]; exact nextLine_nil i3
  simpa only [loop, i2.1, h0, i2.2, turn, Bool.false_eq_true, if_false, Prod.mk.injEq, and_true, List.nil_append] using i6

/-- **C141, wrong lines.** If the lines that count start with a part of a script, and then comes a line that is wrong after it, what the part says is scheduled, nothing else, and the script is rejected. -/
theorem c141_wrong (telemetry : Bool) (f : File) (es : List (Effect τ β)) (t : Table) (l : Line) (rest : List Line) (hf : f.Fresh)
    (h : Part R (if telemetry then .old true else .declared []) f.content es (.declared t) (l :: rest)) (hw : Wrong t l) : readScript R telemetry f = (es, false) := by
  obtain ⟨k, s', f', i1, i2, i3, i4, i5, i6⟩ := loop_script h (f.lines.length + 2) ⟨telemetry, telemetry, [], []⟩ f hf rfl (by omega) (by cases telemetry <;> exact ⟨rfl, by first | rfl | exact ⟨rfl, rfl⟩⟩)
  rw [readScript, i1]
  obtain ⟨k, rfl⟩ : ∃ j, k = j + 1 := ⟨k - 1, by omega⟩
  obtain ⟨ls', h1, -, -⟩ := nextLine_cons (last := f'.last) i3
  have h0 : getLine f' = (l, ⟨ls', f'.last, false⟩) := by rw [getLine, i2.1]; exact h1
  obtain ⟨e1, e2, rfl⟩ := i5
  have i7 : s'.effects = es := by simpa using i6
  have some_of {n : String} (h : s'.table.get n ≠ none) : (s'.table.get n).isSome = true := by
    cases hg : s'.table.get n
    · exact absurd hg h
    · rfl
  cases hw with
  | lookup ty n extra w ht hg =>
    have k1 : ty ≠ "BEGIN_TELEMETRY" := by rintro rfl; exact ht (by decide)
    have k2 : ty ≠ "BEGIN_COMMANDS" := by rintro rfl; exact ht (by decide)
    simp only [loop, i2.1, h0, w, turn, Bool.false_eq_true, if_false, if_true, k1, k2, e1, ne_eq, ht, not_false_eq_true, declaration, String.reduceEq, declare, List.headD_cons, some_of hg, not_true_eq_false, i7]
  | command ty n extra w ht hg =>
    have k1 : ty ≠ "BEGIN_TELEMETRY" := by rintro rfl; exact ht (by decide)
    have k2 : ty ≠ "BEGIN_COMMANDS" := by rintro rfl; exact ht (by decide)
    simp only [loop, i2.1, h0, w, turn, Bool.false_eq_true, if_false, if_true, k1, k2, e1, ne_eq, ht, not_false_eq_true, declaration, commandDecl, String.reduceEq, declare, List.headD_cons, some_of hg, not_true_eq_false, i7]
  | procedure n extra w hg =>
    have k3 : parseType "Command" = .unknown := by decide
    simp only [loop, i2.1, h0, w, turn, Bool.false_eq_true, if_false, if_true, e1, ne_eq, k3, not_true_eq_false, commandDecl, String.reduceEq, declare, List.headD_cons, some_of hg, i7]
  | kind ty x extra w ht n1 n2 =>
    have k1 : ty ≠ "BEGIN_TELEMETRY" := by rintro rfl; exact ht (by decide)
    have k2 : ty ≠ "BEGIN_COMMANDS" := by rintro rfl; exact ht (by decide)
    simp only [loop, i2.1, h0, w, turn, Bool.false_eq_true, if_false, if_true, k1, k2, e1, ne_eq, ht, not_false_eq_true, declaration, n1, n2, declare, i7]
  | alone ty w ht =>
    have k1 : ty ≠ "BEGIN_TELEMETRY" := by rintro rfl; exact ht (by decide)
    have k2 : ty ≠ "BEGIN_COMMANDS" := by rintro rfl; exact ht (by decide)
    simp only [loop, i2.1, h0, w, turn, Bool.false_eq_true, if_false, if_true, k1, k2, e1, ne_eq, ht, not_false_eq_true, declaration, declare, i7]
  | name n ws w hp hne hg =>
    obtain ⟨p1, p2, p3, p4⟩ := hp
    simp only [loop, i2.1, h0, w, turn, Bool.false_eq_true, if_false, if_true, p1, p2, p3, p4, e1, ne_eq, not_true_eq_false, hne, false_and, hg, i7]

/-- The same but for lines that do not count. -/
private def Same (f g : File) : Prop := f.eof = g.eof ∧ f.last = g.last ∧ f.content = g.content

/-- What is left to read. -/
private def left (f : File) : Nat := if f.eof then 0 else f.lines.length + 1

private theorem nextLine_left (last : Line) : ∀ ls : List Line, left (nextLine last ls).2 < ls.length + 1
  | [] => by simp [nextLine, left]
  | l :: ls => by
    rw [nextLine]
    split
    · have := nextLine_left last ls; simp; omega
    · simp [left]

private theorem getLine_left (f : File) : left (getLine f).2 ≤ left f ∧ (f.eof = false → left (getLine f).2 < left f) := by
  unfold getLine
  cases h : f.eof
  · have := nextLine_left f.last f.lines
    simp [left, h] at this ⊢
    split at this
    · simp_all
    · simp_all; omega
  · simp

private theorem getLine_same {f g : File} (h : Same f g) : (getLine f).1 = (getLine g).1 ∧ Same (getLine f).2 (getLine g).2 := by
  obtain ⟨h1, h2, h3⟩ := h
  unfold getLine
  rw [h1]
  cases he : g.eof
  · simp only [Bool.false_eq_true, if_false]
    cases hc : g.content with
    | nil => rw [nextLine_nil hc, nextLine_nil (h3.trans hc), h2]; exact ⟨rfl, rfl, rfl, rfl⟩
    | cons l c =>
      obtain ⟨ls', a1, a2, _⟩ := nextLine_cons (last := f.last) (h3.trans hc)
      obtain ⟨ls'', b1, b2, _⟩ := nextLine_cons (last := g.last) hc
      rw [a1, b1]
      exact ⟨rfl, rfl, h2, a2.trans b2.symm⟩
  · simp only [if_true]
    exact ⟨trivial, h1, h2, h3⟩

/-- The two turns lead to the same. -/
private def TSame (F G : Nat) : Turn τ β → Turn τ β → Prop
  | .next s f, .next s' g => s = s' ∧ Same f g ∧ left f ≤ F ∧ left g ≤ G
  | .done s, .done s' => s = s'
  | .fail s, .fail s' => s = s'
  | _, _ => False

private theorem entry_same {F G : Nat} (s : St τ β) {p q : Option (Effect τ β) × File} (h1 : p.1 = q.1) (h2 : Same p.2 q.2) (h3 : left p.2 ≤ F) (h4 : left q.2 ≤ G) : TSame F G (entry s p) (entry s q) := by
  unfold entry
  rw [h1]
  cases q.1 <;> simp [TSame, h2, h3, h4]

private theorem declare_same {F G : Nat} (s : St τ β) (d : Option (String × Sym)) {f g : File} (h2 : Same f g) (h3 : left f ≤ F) (h4 : left g ≤ G) : TSame F G (declare s f d) (declare s g d) := by
  unfold declare
  cases d with
  | none => simp [TSame]
  | some p =>
    obtain ⟨n, y⟩ := p
    simp only
    cases (s.table.get n) <;> simp [TSame, h2, h3, h4]

private theorem tel_same {f g : File} (h : Same f g) (n : String) (rest : List String) (ty : VT) :
    (telemetryReturn R f n rest ty).1 = (telemetryReturn R g n rest ty).1 ∧ Same (telemetryReturn R f n rest ty).2 (telemetryReturn R g n rest ty).2 ∧
      left (telemetryReturn R f n rest ty).2 ≤ left f ∧ left (telemetryReturn R g n rest ty).2 ≤ left g := by
  obtain ⟨g1, g2⟩ := getLine_same h
  unfold telemetryReturn
  cases R.tel rest with
  | none => exact ⟨rfl, h, Nat.le_refl _, Nat.le_refl _⟩
  | some t => exact ⟨by simp only [g1], g2, (getLine_left f).1, (getLine_left g).1⟩

private theorem cmd_same {f g : File} (h : Same f g) (n : String) (rest : List String) (ty : VT) :
    (commandReturn R f n rest ty).1 = (commandReturn R g n rest ty).1 ∧ Same (commandReturn R f n rest ty).2 (commandReturn R g n rest ty).2 ∧
      left (commandReturn R f n rest ty).2 ≤ left f ∧ left (commandReturn R g n rest ty).2 ≤ left g := by
  obtain ⟨g1, g2⟩ := getLine_same h
  unfold commandReturn
  cases R.cmd rest with
  | none => exact ⟨rfl, h, Nat.le_refl _, Nat.le_refl _⟩
  | some t =>
    obtain ⟨i, k, d⟩ := t
    simp only [g2.1]
    cases (getLine g).2.eof
    · exact ⟨by simp only [g1]; rfl, g2, (getLine_left f).1, (getLine_left g).1⟩
    · exact ⟨rfl, g2, (getLine_left f).1, (getLine_left g).1⟩

/-- A turn is the same whatever comments are in the file. -/
private theorem turn_same (s : St τ β) {f g : File} (ws : List String) (h : Same f g) : TSame (left f) (left g) (turn R s f ws) (turn R s g ws) := by
  cases ws with
  | nil => simp [turn, TSame]
  | cons w rest =>
    have hn : ∀ s' : St τ β, TSame (left f) (left g) (.next s' f) (.next s' g) := fun s' => ⟨rfl, h, Nat.le_refl _, Nat.le_refl _⟩
    have ht : ∀ (s' : St τ β) ty, TSame (left f) (left g) (entry s' (telemetryReturn R f w rest ty)) (entry s' (telemetryReturn R g w rest ty)) := fun s' ty =>
      let ⟨a, b, c, d⟩ := tel_same (R := R) h w rest ty; entry_same s' a b c d
    have hc : ∀ (s' : St τ β) ty, TSame (left f) (left g) (entry s' (commandReturn R f w rest ty)) (entry s' (commandReturn R g w rest ty)) := fun s' ty =>
      let ⟨a, b, c, d⟩ := cmd_same (R := R) h w rest ty; entry_same s' a b c d
    have hd : ∀ d, TSame (left f) (left g) (declare s f d) (declare s g d) := fun d => declare_same s d h (Nat.le_refl _) (Nat.le_refl _)
    simp only [turn]
    by_cases c1 : w = "BEGIN_TELEMETRY"
    · simp only [c1, if_true]; exact hn _
    by_cases c2 : w = "BEGIN_COMMANDS"
    · simp only [c2, if_true, String.reduceEq, if_false]; exact hn _
    simp only [c1, c2, if_false]
    cases s.compat
    · by_cases c3 : parseType w ≠ .unknown
      · simp only [c3, if_true, Bool.false_eq_true, if_false, ne_eq, not_false_eq_true]; exact hd _
      simp only [c3, Bool.false_eq_true, if_false]
      by_cases c4 : w = "Command"
      · simp only [c4, if_true]; exact hd _
      simp only [c4, if_false]
      by_cases c5 : s.table = [] ∧ s.telemetry = false ∧ False = False
      · simp only [c5.1, c5.2.1, and_self, if_true]; exact hc _ _
      · by_cases c6 : s.table = [] ∧ s.telemetry = false
        · exact absurd ⟨c6.1, c6.2, rfl⟩ c5
        · have c7 : ¬ (s.table = [] ∧ s.telemetry = false ∧ true = true) := fun h => c6 ⟨h.1, h.2.1⟩
          simp only [c7, and_true, c6, if_false]
          cases s.table.get w with
          | none => simp [TSame]
          | some y => simp only; cases y.lookup <;> simp only [Bool.false_eq_true, if_false, if_true] <;> first | exact ht _ _ | exact hc _ _
    · cases s.telemetry <;> simp only [Bool.false_eq_true, if_false, if_true] <;> first | exact ht _ _ | exact hc _ _

private theorem loop_same : ∀ (n m : Nat) (s : St τ β) (f g : File), Same f g → left f < n → left g < m → loop R n s f = loop R m s g
  | 0, _, _, _, _, _, h, _ => by omega
  | _, 0, _, _, _, _, _, h => by omega
  | n + 1, m + 1, s, f, g, h, hn, hm => by
    rw [loop, loop, h.1]
    cases he : g.eof
    · obtain ⟨g1, g2⟩ := getLine_same h
      have hf := (getLine_left f).2 (h.1.trans he)
      have hg := (getLine_left g).2 he
      have ht := turn_same (R := R) s (words (getLine g).1) g2
      simp only [Bool.false_eq_true, if_false, g1]
      revert ht
      cases h1 : turn R s (getLine f).2 (words (getLine g).1) <;> cases h2 : turn R s (getLine g).2 (words (getLine g).1) <;> simp only [TSame, false_implies, forall_const]
      · rintro ⟨rfl, k1, k2, k3⟩
        exact loop_same n m _ _ _ k1 (by omega) (by omega)
      · rintro rfl; trivial
      · rintro rfl; trivial
    · rfl

/-- **C141, comments.** Lines that are blank, or do not begin with a letter or digit, can be put in or left out anywhere: the result is the same, for any file, a script or not. -/
theorem c141_comments (telemetry : Bool) (f g : File) (he : f.eof = g.eof) (hl : f.last = g.last) (h : f.content = g.content) : readScript R telemetry f = readScript R telemetry g :=
  loop_same _ _ _ f g ⟨he, hl, h⟩ (by unfold left; split <;> omega) (by unfold left; split <;> omega)

/-! ## What goes wrong -/

/-- A declared lookup. -/
def exDecl : Line := "Real Lookup x".toList

/-- **C141, refuted: negative values.** A value that begins with a minus sign is taken as a comment. The next entry is taken as the value, its own value as an entry, and the rest is not read; the simulator runs all the same. -/
theorem c141_negative_refuted (d : τ) (hd : R.tel ["1"] = some d) :
    readScript R false ⟨[exDecl, "x 1".toList, "-5".toList, "x 2".toList, "7".toList, "x 3".toList, "8".toList], [], false⟩ = ([.tel "x" d (R.val .real "x 2".toList)], false) ∧
    simulator R false ⟨[exDecl, "x 1".toList, "-5".toList, "x 2".toList, "7".toList, "x 3".toList, "8".toList], [], false⟩ = [.tel "x" d (R.val .real "x 2".toList)] := by
  have w0 : words exDecl = ["Real", "Lookup", "x"] := by decide
  have w1 : words "x 1".toList = ["x", "1"] := by decide
  have w2 : words "7".toList = ["7"] := by decide
  have i0 : ignored exDecl = false := by decide
  have i1 : ignored "x 1".toList = false := by decide
  have i2 : ignored "-5".toList = true := by decide
  have i3 : ignored "x 2".toList = false := by decide
  have i4 : ignored "7".toList = false := by decide
  have t0 : parseType "Real" = .real := by decide
  have t1 : parseType "x" = .unknown := by decide
  have t2 : parseType "7" = .unknown := by decide
  have := fun (a b c d e : Line) => show readScript R false ⟨[exDecl, "x 1".toList, "-5".toList, "x 2".toList, "7".toList, d, e], [], false⟩ = ([.tel "x" ‹τ› (R.val .real "x 2".toList)], false) by
    generalize "x 1".toList = l1 at *; generalize "-5".toList = l2 at *; generalize "x 2".toList = l3 at *; generalize "7".toList = l4 at *; generalize exDecl = l0 at *
    simp [readScript, loop, getLine, nextLine, w0, w1, w2, i0, i1, i2, i3, i4, turn, t0, t1, t2, declaration, declare, Table.get, telemetryReturn, hd, entry]
  exact ⟨this [] [] [] _ _, by rw [simulator, this [] [] [] _ _]⟩

/-- **C141, refuted: errors.** An entry whose numbers cannot be read ends the script, but it is accepted. -/
theorem c141_error_refuted (hd : R.tel ["soon"] = none) : readScript R false ⟨[exDecl, "x soon".toList, "5".toList, "x 2".toList, "7".toList], [], false⟩ = ([], true) := by
  have w0 : words exDecl = ["Real", "Lookup", "x"] := by decide
  have w1 : words "x soon".toList = ["x", "soon"] := by decide
  have i0 : ignored exDecl = false := by decide
  have i1 : ignored "x soon".toList = false := by decide
  have t0 : parseType "Real" = .real := by decide
  have t1 : parseType "x" = .unknown := by decide
  generalize "x soon".toList = l1 at *; generalize "5".toList = l2 at *; generalize "x 2".toList = l3 at *; generalize "7".toList = l4 at *; generalize exDecl = l0 at *
  simp [readScript, loop, getLine, nextLine, w0, w1, i0, i1, turn, t0, t1, declaration, declare, Table.get, telemetryReturn, hd, entry]

/-- **C141, refuted: a comment at the end.** A comment at the very end, without a newline, makes the script be rejected. -/
theorem c141_comment_refuted (d : τ) (hd : R.tel ["1"] = some d) : readScript R false ⟨[exDecl, "x 1".toList, "5".toList], "# end".toList, false⟩ = ([.tel "x" d (R.val .real "5".toList)], false) := by
  have w0 : words exDecl = ["Real", "Lookup", "x"] := by decide
  have w1 : words "x 1".toList = ["x", "1"] := by decide
  have w2 : words "# end".toList = ["#", "end"] := by decide
  have i0 : ignored exDecl = false := by decide
  have i1 : ignored "x 1".toList = false := by decide
  have i2 : ignored "5".toList = false := by decide
  have t0 : parseType "Real" = .real := by decide
  have t1 : parseType "x" = .unknown := by decide
  have t2 : parseType "#" = .unknown := by decide
  generalize "x 1".toList = l1 at *; generalize "5".toList = l2 at *; generalize "# end".toList = l3 at *; generalize exDecl = l0 at *
  simp [readScript, loop, getLine, nextLine, w0, w1, w2, i0, i1, i2, turn, t0, t1, t2, declaration, declare, Table.get, telemetryReturn, hd, entry]

/-- **C141, refuted: a value at the end.** The last response is left out if its value is not followed by a newline; the script is accepted. -/
theorem c141_last_refuted (r : Nat × Nat × τ) (hd : R.cmd ["1", "1", "2"] = some r) : readScript R false ⟨["Integer Command go".toList, "go 1 1 2".toList], "5".toList, false⟩ = ([], true) := by
  have w0 : words "Integer Command go".toList = ["Integer", "Command", "go"] := by decide
  have w1 : words "go 1 1 2".toList = ["go", "1", "1", "2"] := by decide
  have i0 : ignored "Integer Command go".toList = false := by decide
  have i1 : ignored "go 1 1 2".toList = false := by decide
  have t0 : parseType "Integer" = .integer := by decide
  have t1 : parseType "go" = .unknown := by decide
  obtain ⟨i, k, d⟩ := r
  generalize "Integer Command go".toList = l0 at *; generalize "go 1 1 2".toList = l1 at *; generalize "5".toList = l2 at *
  simp [readScript, loop, getLine, nextLine, w0, w1, i0, i1, turn, t0, t1, declaration, commandDecl, declare, Table.get, commandReturn, hd, entry]

/-! ## Files and text; an example -/

/-- The text of a file is its lines, each with a newline, and what follows the last one; no line has a newline in it. -/
theorem c141_text (t : List Char) : (ofText t).lines.flatMap (· ++ ['\n']) ++ (ofText t).last = t ∧ (∀ l ∈ (ofText t).lines, '\n' ∉ l) ∧ '\n' ∉ (ofText t).last ∧ (ofText t).eof = false := by
  induction t with
  | nil => simp [ofText]
  | cons c cs ih =>
    obtain ⟨h1, h2, h3, h4⟩ := ih
    rw [ofText]
    by_cases hc : c = '\n'
    · simp only [hc, if_true]
      refine ⟨by simp only [List.flatMap_cons, List.nil_append, List.cons_append]; rw [h1], ?_, h3, trivial⟩
      intro l hl
      simp only [List.mem_cons] at hl
      rcases hl with rfl | hl
      · simp
      · exact h2 l hl
    · simp only [hc, if_false]
      cases hl : (ofText cs).lines with
      | nil =>
        rw [hl] at h1
        refine ⟨by simpa using h1, by simp, ?_, rfl⟩
        simp only [List.mem_cons, not_or]
        exact ⟨fun h => hc h.symm, h3⟩
      | cons l ls =>
        rw [hl] at h1 h2
        refine ⟨by simpa using h1, ?_, h3, rfl⟩
        intro x hx
        simp only [List.mem_cons] at hx
        rcases hx with rfl | hx
        · simp only [List.mem_cons, not_or]
          exact ⟨fun h => hc h.symm, h2 l (by simp)⟩
        · exact h2 x (by simp [hx])

/-- Reading numbers by their words, and keeping values as they are: for the example. -/
def exReader : Reader (List String) (VT × Line) where
  tel ws := some ws
  cmd ws := some (1, 1, ws)
  val ty l := (ty, l)

/-- A script with comments: a lookup, a command, an entry for each. -/
def exText : List Char := "# test\nReal Lookup x\nInteger Command go\n\nx 1.5\n  3.2\ngo 1 1 2\n// value\n5\n".toList

/-- It is a script, so the theorem applies. -/
example : readScript exReader false (ofText exText) = ([.tel "x" ["1.5"] (.real, "  3.2".toList), .cmd "go" 1 1 ["1", "1", "2"] (.integer, "5".toList)], true) := by
  apply c141_reads_partial
  · exact ⟨by decide, by decide⟩
  · have : (ofText exText).content = ["Real Lookup x".toList, "Integer Command go".toList, "x 1.5".toList, "  3.2".toList, "go 1 1 2".toList, "5".toList] := by decide
    rw [this]
    refine ⟨.declared [("go", ⟨false, .integer⟩), ("x", ⟨true, .real⟩)], ?_⟩
    refine .lookup _ _ _ _ _ _ "Real" "x" [] (by decide) (by decide) (by decide) ?_
    refine .command _ _ _ _ _ _ "Integer" "go" [] (by decide) (by decide) (by decide) ?_
    refine .tel _ _ _ _ _ _ _ "x" ["1.5"] .real _ (by decide) ⟨by decide, by decide, by decide, by decide⟩ (by decide) rfl ?_
    refine .cmd _ _ _ _ _ _ _ "go" ["1", "1", "2"] .integer _ _ _ (by decide) ⟨by decide, by decide, by decide, by decide⟩ (by decide) rfl ?_
    exact .nil _ _

/-- The same lookup declared twice: a wrong line. -/
example : readScript exReader false ⟨["Real Lookup x".toList, "x 1.5".toList, "3".toList, "Integer Lookup x".toList, "x 2".toList, "4".toList], [], false⟩ = ([.tel "x" ["1.5"] (.real, "3".toList)], false) := by
  refine c141_wrong false _ _ [("x", ⟨true, .real⟩)] "Integer Lookup x".toList ["x 2".toList, "4".toList] ⟨rfl, by decide⟩ ?_ (.lookup "Integer" "x" [] (by decide) (by decide) (by decide))
  have : File.content ⟨["Real Lookup x".toList, "x 1.5".toList, "3".toList, "Integer Lookup x".toList, "x 2".toList, "4".toList], [], false⟩ =
    ["Real Lookup x".toList, "x 1.5".toList, "3".toList, "Integer Lookup x".toList, "x 2".toList, "4".toList] := by decide
  rw [this]
  refine .lookup _ _ _ _ _ _ "Real" "x" [] (by decide) (by decide) (by decide) ?_
  refine .tel _ _ _ _ _ _ _ "x" ["1.5"] .real _ (by decide) ⟨by decide, by decide, by decide, by decide⟩ (by decide) rfl ?_
  exact .nil _ _

/-- White space, in a script. -/
def White (c : Char) : Prop := c = ' ' ∨ c = '\t' ∨ c = '\n' ∨ c = Char.ofNat 11 ∨ c = Char.ofNat 12 ∨ c = '\r'

theorem space_iff (c : Char) : space c = true ↔ White c := by
  simp only [space, blank, White, Bool.or_eq_true, decide_eq_true_eq]
  constructor
  · rintro ((((( h | h) | h) | h) | h) | h)
    · exact .inl h
    · exact .inr (.inl h)
    · exact .inr (.inr (.inl h))
    · exact .inr (.inr (.inr (.inr (.inr h))))
    · exact .inr (.inr (.inr (.inl h)))
    · exact .inr (.inr (.inr (.inr (.inl h))))
  · rintro (h | h | h | h | h | h)
    · exact .inl (.inl (.inl (.inl (.inl h))))
    · exact .inl (.inl (.inl (.inl (.inr h))))
    · exact .inl (.inl (.inl (.inr h)))
    · exact .inl (.inr h)
    · exact .inr h
    · exact .inl (.inl (.inr h))

/-- **C141, words**: a line is read as its longest parts without white space, in order: none is empty, none contains any, between two there is some. -/
theorem c141_words (l : Line) : (words l).flatMap String.toList = l.filter (fun c => !space c) ∧ (∀ w ∈ words l, w ≠ "" ∧ ∀ c ∈ w.toList, ¬ White c) ∧
    (∀ pre c post, l = pre ++ c :: post → White c → words l = words pre ++ words post) ∧
    (l ≠ [] → (∀ c ∈ l, ¬ White c) → words l = [String.ofList l]) := by
  have key : ∀ (l w : List Char), (∀ c ∈ w, ¬ White c) → (wordsFrom w l).flatMap String.toList = w.reverse ++ l.filter (fun c => !space c) ∧
      (∀ x ∈ wordsFrom w l, x ≠ "" ∧ ∀ c ∈ x.toList, ¬ White c) := by
    intro l
    induction l with
    | nil =>
      intro w hw
      simp only [wordsFrom]
      split
      · rename_i h; subst h; simp
      · rename_i h; simp [h]; exact hw
    | cons c l ih =>
      intro w hw
      simp only [wordsFrom]
      by_cases hs : space c = true
      · rw [if_pos hs]
        obtain ⟨i1, i2⟩ := ih [] (by simp)
        split
        · rename_i h; subst h; simp [hs] at i1 ⊢; exact ⟨i1, i2⟩
        · rename_i h
          refine ⟨by simp [hs] at i1 ⊢; exact i1, fun x hx => ?_⟩
          rcases List.mem_cons.1 hx with rfl | hx
          · simp; exact ⟨by simpa using h, hw⟩
          · exact i2 x hx
      · rw [if_neg hs]
        obtain ⟨i1, i2⟩ := ih (c :: w) (fun x hx => by
          rcases List.mem_cons.1 hx with rfl | hx
          · exact fun hc => hs ((space_iff _).2 hc)
          · exact hw x hx)
        exact ⟨by simp [hs] at i1 ⊢; exact i1, i2⟩
  have cut : ∀ (pre w : List Char) (c : Char) (post : List Char), White c → wordsFrom w (pre ++ c :: post) = wordsFrom w pre ++ wordsFrom [] post := by
    intro pre
    induction pre with
    | nil =>
      intro w c post hc
      simp only [List.nil_append, wordsFrom, (space_iff c).2 hc, if_true]
      split <;> simp
    | cons x pre ih =>
      intro w c post hc
      simp only [List.cons_append, wordsFrom]
      split
      · split
        · exact ih _ _ _ hc
        · rw [ih _ _ _ hc]; rfl
      · exact ih _ _ _ hc
  have whole : ∀ (l w : List Char), (∀ c ∈ l, ¬ White c) → w.reverse ++ l ≠ [] → wordsFrom w l = [String.ofList (w.reverse ++ l)] := by
    intro l
    induction l with
    | nil => intro w _ h; simp at h; simp [wordsFrom, h]
    | cons c l ih =>
      intro w hl _
      have : ¬ space c = true := fun hs => hl c (by simp) ((space_iff _).1 hs)
      simp only [wordsFrom, this, if_false]
      rw [ih (c :: w) (fun x hx => hl x (by simp [hx])) (by simp)]
      simp
  unfold words
  refine ⟨by simpa using (key l [] (by simp)).1, (key l [] (by simp)).2, ?_, fun h1 h2 => by simpa using whole l [] h2 (by simpa using h1)⟩
  rintro pre c post rfl hc
  exact cut pre [] c post hc

/-- **C141, comments**: a line is passed over if it is empty or blank, or if the first character that is not blank is neither a letter nor a digit. -/
theorem c141_ignored (l : Line) : ignored l = true ↔ (∀ c ∈ l, c = ' ' ∨ c = '\t' ∨ c = '\n' ∨ c = '\r') ∨
    ∃ pre c post, l = pre ++ c :: post ∧ (∀ x ∈ pre, x = ' ' ∨ x = '\t' ∨ x = '\n' ∨ x = '\r') ∧ ¬ (c = ' ' ∨ c = '\t' ∨ c = '\n' ∨ c = '\r') ∧ c.isAlphanum = false := by
  have hb : ∀ c, blank c = true ↔ c = ' ' ∨ c = '\t' ∨ c = '\n' ∨ c = '\r' := by
    intro c; simp only [blank, Bool.or_eq_true, decide_eq_true_eq, or_assoc]
  simp only [← hb]
  unfold ignored
  induction l with
  | nil => simp
  | cons a l ih =>
    by_cases ha : blank a = true
    · rw [List.dropWhile_cons_of_pos ha]
      refine Iff.trans ih ?_
      constructor
      · rintro (h | ⟨pre, c, post, rfl, h1, h2, h3⟩)
        · left; intro c hc
          rcases List.mem_cons.1 hc with rfl | hc
          · exact ha
          · exact h c hc
        · right
          refine ⟨a :: pre, c, post, rfl, fun x hx => ?_, h2, h3⟩
          rcases List.mem_cons.1 hx with rfl | hx
          · exact ha
          · exact h1 x hx
      · rintro (h | ⟨pre, c, post, he, h1, h2, h3⟩)
        · exact .inl fun c hc => h c (by simp [hc])
        · cases pre with
          | nil => simp at he; obtain ⟨rfl, _⟩ := he; exact absurd ha h2
          | cons x pre => simp at he; exact .inr ⟨pre, c, post, he.2, fun y hy => h1 y (by simp [hy]), h2, h3⟩
    · rw [List.dropWhile_cons_of_neg ha]
      simp only [alnum, Bool.not_eq_true']
      constructor
      · intro h; exact .inr ⟨[], a, l, rfl, by simp, ha, h⟩
      · rintro (h | ⟨pre, c, post, he, h1, h2, h3⟩)
        · exact absurd (h a (by simp)) ha
        · cases pre with
          | nil => simp at he; obtain ⟨rfl, _⟩ := he; exact h3
          | cons x pre => simp at he; obtain ⟨rfl, _⟩ := he; exact absurd (h1 _ (by simp)) ha

end Verif.SimScript
