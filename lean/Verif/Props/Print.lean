import Verif.Print.Model
set_option autoImplicit false
/-!
C151: what the printing commands print.
-/
namespace Verif.Print
variable {V : Type}

theorem loop_text (shown : V → List Char) (pretty : Bool) : ∀ (vs : List V) (s : List Char),
    loop shown pretty s vs = s ++ (vs.map fun v => shown v ++ if pretty then [' '] else []).flatten := by
  intro vs
  induction vs with
  | nil => intro s; simp [loop]
  | cons v vs ih => intro s; simp [loop, ih]

/-- The texts of the values, one behind the other. -/
def plain (shown : V → List Char) (args : List V) : List Char := (args.map shown).flatten
/-- A line: each text with a blank behind it. -/
def line (shown : V → List Char) (args : List V) : List Char := (args.map fun v => shown v ++ [' ']).flatten ++ ['\n']

/-- **C151**: `print` adds the texts of its arguments to the output, `pprint` a line with them; the others leave the output alone and give the same text as their result, before they are reported successful. Each is reported
successful once. -/
theorem c151_commands (shown : V → List Char) (out : List Char) (args : List V) :
    execute shown out args .print = (out ++ plain shown args, [.success]) ∧
    execute shown out args .pprint = (out ++ line shown args, [.success]) ∧
    execute shown out args .printToString = (out, [.result (plain shown args), .success]) ∧
    execute shown out args .pprintToString = (out, [.result (line shown args), .success]) := by
  simp [execute, printAux, loop_text, plain, line]

/-- What a command contributes to the output. -/
def part (shown : V → List Char) (c : Cmd × List V) : List Char :=
  match c.1 with
  | .print => plain shown c.2
  | .pprint => line shown c.2
  | _ => []

/-- **C151, output**: the output of a sequence of commands is what they contribute, in order: nothing is lost or printed twice. -/
theorem c151_output (shown : V → List Char) : ∀ (cs : List (Cmd × List V)) (out : List Char), session shown out cs = out ++ (cs.map (part shown)).flatten := by
  intro cs
  induction cs with
  | nil => intro out; simp [session]
  | cons c cs ih =>
    intro out
    obtain ⟨k, args⟩ := c
    have e : (execute shown out args k).1 = out ++ part shown (k, args) := by
      obtain ⟨h1, h2, h3, h4⟩ := c151_commands shown out args
      cases k
      · rw [h1]; rfl
      · rw [h2]; rfl
      · rw [h3]; simp [part]
      · rw [h4]; simp [part]
    simp [session, e, ih]

/-- No blank and no end of line. -/
def OneWord (t : List Char) : Prop := ' ' ∉ t ∧ '\n' ∉ t

theorem split_at {x : Char} : ∀ (a b s t : List Char), x ∉ a → x ∉ b → a ++ x :: s = b ++ x :: t → a = b ∧ s = t := by
  intro a
  induction a with
  | nil =>
    intro b s t _ hb h
    cases b with
    | nil => simpa using h
    | cons c b => simp at h; exact absurd (h.1 ▸ List.mem_cons_self) hb
  | cons c a ih =>
    intro b s t ha hb h
    cases b with
    | nil => simp at h; exact absurd (h.1 ▸ List.mem_cons_self) ha
    | cons d b =>
      simp only [List.cons_append, List.cons.injEq] at h
      obtain ⟨h1, h2⟩ := ih b s t (fun m => ha (List.mem_cons_of_mem _ m)) (fun m => hb (List.mem_cons_of_mem _ m)) h.2
      exact ⟨by rw [h.1, h1], h2⟩

/-- **C151, lines**: if no text has a blank or an end of line, what `pprint` prints tells how many arguments there were and the text of each. -/
theorem c151_line_readable (shown : V → List Char) : ∀ (vs ws : List V) (s t : List Char), (∀ v ∈ vs ++ ws, OneWord (shown v)) →
    line shown vs ++ s = line shown ws ++ t → vs.map shown = ws.map shown ∧ s = t := by
  intro vs
  induction vs with
  | nil =>
    intro ws s t hw h
    cases ws with
    | nil => simpa [line] using h
    | cons w ws =>
      exfalso
      have hc := (hw w (by simp)).2
      simp only [line, List.map_nil, List.flatten_nil, List.nil_append, List.map_cons, List.flatten_cons, List.append_assoc, List.cons_append] at h
      cases e : shown w with
      | nil => rw [e] at h; simp at h
      | cons c r => rw [e] at h hc; simp at h; exact hc (h.1 ▸ List.mem_cons_self)
  | cons v vs ih =>
    intro ws s t hw h
    cases ws with
    | nil =>
      exfalso
      have hc := (hw v (by simp)).2
      simp only [line, List.map_nil, List.flatten_nil, List.nil_append, List.map_cons, List.flatten_cons, List.append_assoc, List.cons_append] at h
      cases e : shown v with
      | nil => rw [e] at h; simp at h
      | cons c r => rw [e] at h hc; simp at h; exact hc (h.1 ▸ List.mem_cons_self)
    | cons w ws =>
      simp only [line, List.map_cons, List.flatten_cons, List.append_assoc, List.cons_append, List.nil_append] at h
      obtain ⟨h1, h2⟩ := split_at _ _ _ _ (hw v (by simp)).1 (hw w (by simp)).1 h
      obtain ⟨h3, h4⟩ := ih ws s t (fun u hu => hw u (by
        rcases List.mem_append.1 hu with hu | hu
        · simp [hu]
        · simp [hu])) (by simpa [line] using h2)
      exact ⟨by simp [h1, h3], h4⟩

/-- `print` does not separate its arguments. Otherwise, an example. -/
theorem c151_example :
    let shown := fun (v : List Char) => v
    (session shown [] [(.print, ["a".toList, "bc".toList]), (.printToString, ["x".toList]), (.pprint, ["d".toList, "e".toList])]) = "abcd e \n".toList ∧
    plain shown ["a".toList, "bc".toList] = plain shown ["ab".toList, "c".toList] ∧
    (execute shown [] ["d".toList, "e".toList] .pprintToString).2 = [.result "d e \n".toList, .success] ∧ OneWord "bc".toList := by
  refine ⟨by decide, by decide, by decide, by decide, by decide⟩

end Verif.Print
