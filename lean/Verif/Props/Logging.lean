import Verif.Logging.Spec
set_option autoImplicit false
/-!
C155: what is reported is printed, logged, and decided by the user.
-/
namespace Verif.Logging

theorem cstr_strncpy (f : Text) (n : Nat) (h : f.length < n) (h0 : '\x00' ∉ f) : cstr (strncpy f n) = f := by
  unfold cstr strncpy
  rw [List.take_of_length_le (by omega)]
  obtain ⟨k, hk⟩ : ∃ k, n - f.length = k + 1 := ⟨n - f.length - 1, by omega⟩
  rw [hk, List.replicate_succ]
  clear hk h
  induction f with
  | nil => rfl
  | cons c r ih =>
    have hc : c ≠ '\x00' := fun e => h0 (by rw [e]; exact List.mem_cons_self)
    have := ih (fun e => h0 (List.mem_cons_of_mem _ e))
    simpa [List.takeWhile_cons, hc] using this

theorem setName_name (s : St) (f : Text) (h0 : '\x00' ∉ f) : (s.setName f).buf.map cstr = some f := by
  simp only [St.setName, Option.map_some, Option.some.injEq]
  apply cstr_strncpy _ _ _ h0
  split <;> omega

theorem default_ok : '\x00' ∉ defaultName := by decide

theorem asks_iff (w : World) (k : Kind) : asks w k = true ↔ Asked w k := by cases k <;> simp [asks, Asked]
theorem asks_not {w : World} {k : Kind} (h : ¬ Asked w k) : asks w k = false := by
  rw [← asks_iff] at h; simpa using h

theorem text_reading (k : Kind) (m : Msg) : text k m = reading k m := by
  have hk : kindName k = word k := by cases k <;> rfl
  have hc : ": ".toList = [':', ' '] := by decide
  have hd : ":".toList = [':'] := by decide
  cases m with
  | plain t => simp only [text, reading, hk, hc, List.append_assoc]
  | offset f o t => simp only [text, reading, hk, hc, hd, dec]; cases f <;> cases t <;> simp only [List.append_assoc]
  | «at» f l c t => simp only [text, reading, hk, hc, hd, dec]; cases f <;> cases t <;> simp only [List.append_assoc]

/-- The name in the buffer, or the default. -/
def nameOf (s : St) : Text := (s.buf.map cstr).getD defaultName

theorem ensure_name (s : St) : cstr (s.ensure.buf.getD []) = nameOf s ∧ nameOf s.ensure = nameOf s := by
  unfold St.ensure nameOf
  by_cases h : s.buf = none
  · rw [if_pos h]
    have := setName_name s defaultName default_ok
    cases hb : (s.setName defaultName).buf with
    | none => rw [hb] at this; cases this
    | some b =>
      rw [hb] at this
      simp only [Option.map_some, Option.some.injEq] at this
      simp [h, this]
  · rw [if_neg h]
    cases hb : s.buf with
    | none => exact absurd hb h
    | some b => simp

theorem ensure_rest (s : St) : s.ensure.fresh = s.fresh ∧ s.ensure.files = s.files ∧ s.ensure.clock = s.clock ∧ s.ensure.err = s.err ∧ s.ensure.exited = s.exited := by
  unfold St.ensure
  split <;> exact ⟨rfl, rfl, rfl, rfl, rfl⟩

/-- What a call does to what can be seen. -/
theorem step_quiet (w : World) (s : St) (e : Ev) (hx : s.exited = false) (hq : Quiet w [e]) :
    let s' := step w s e
    s'.exited = false ∧ s'.err = s.err ++ prints e ∧
    nameOf s' = (match e with | .name (some f) => f | .purge => defaultName | _ => nameOf s) ∧
    (match logs w e with
      | none => s'.files = s.files ∧ s'.fresh = s.fresh ∧ s'.clock = s.clock
      | some t => s'.fresh = false ∧ s'.clock = s.clock + 1 ∧
        s'.files = append w s.files (nameOf s) ((if s.fresh then header w else []) ++ w.date s.clock ++ ": ".toList ++ t ++ "\n".toList)) := by
  have hlog : ∀ (s : St) (t : Text), s.exited = false → (s.printToLog w t).exited = false ∧ (s.printToLog w t).err = s.err ∧ nameOf (s.printToLog w t) = nameOf s ∧
      (s.printToLog w t).fresh = false ∧ (s.printToLog w t).clock = s.clock + 1 ∧
      (s.printToLog w t).files = append w s.files (nameOf s) ((if s.fresh then header w else []) ++ w.date s.clock ++ ": ".toList ++ t ++ "\n".toList) := by
    intro s t hs
    obtain ⟨h1, h2, h3, h4, h5⟩ := ensure_rest s
    refine ⟨?_, ?_, ?_, rfl, ?_, ?_⟩
    · simp only [St.printToLog, h5, hs]
    · simp only [St.printToLog, h4]
    · exact (ensure_name s).2
    · simp only [St.printToLog, h3]
    · simp only [St.printToLog, h1, h2, h3, (ensure_name s).1]
  cases e with
  | name f =>
    cases f with
    | none =>
      obtain ⟨h1, h2, h3, h4, h5⟩ := ensure_rest s
      simp [step, hx, prints, logs, h1, h2, h3, h4, h5, (ensure_name s).2]
    | some f =>
      have := setName_name s f (hq.2 f (by simp))
      simp only [step, hx, logs, prints]
      refine ⟨by simpa [St.setName] using hx, by simp [St.setName], ?_, by simp [St.setName]⟩
      simp [nameOf, this]
  | purge => simp [step, hx, logs, prints, St.purge, nameOf]
  | note t =>
    obtain ⟨h1, h2, h3, h4, h5, h6⟩ := hlog s t hx
    simp only [step, hx, logs, prints, List.append_nil]
    exact ⟨h1, h2, h3, h4, h5, h6⟩
  | report k m =>
    have ha := asks_not (hq.1 k m (by simp))
    simp only [step, hx, logs, prints, St.handle, ha, ← text_reading]
    cases hl : w.logging with
    | false => simp [St.say, hx, nameOf]
    | true =>
      obtain ⟨h1, h2, h3, h4, h5, h6⟩ := hlog (s.say (text k m ++ "\n".toList)) (text k m) hx
      simp only [if_true]
      refine ⟨h1, ?_, h3, h4, h5, h6⟩
      simpa [St.say] using h2

theorem Quiet.left {w : World} {a b : List Ev} (h : Quiet w (a ++ b)) : Quiet w a :=
  ⟨fun k m hm => h.1 k m (List.mem_append_left _ hm), fun f hf => h.2 f (List.mem_append_left _ hf)⟩
theorem Quiet.right {w : World} {a b : List Ev} (h : Quiet w (a ++ b)) : Quiet w b :=
  ⟨fun k m hm => h.1 k m (List.mem_append_right _ hm), fun f hf => h.2 f (List.mem_append_right _ hf)⟩

theorem snoc_ind {α : Type} {P : List α → Prop} (h0 : P []) (h1 : ∀ l a, P l → P (l ++ [a])) : ∀ l, P l := by
  intro l
  have : ∀ r : List α, P r.reverse := by
    intro r
    induction r with
    | nil => exact h0
    | cons a r ih => rw [List.reverse_cons]; exact h1 _ _ ih
  simpa using this l.reverse

theorem run_snoc (w : World) (s : St) (es : List Ev) (e : Ev) : run w s (es ++ [e]) = step w (run w s es) e := by
  simp [run, List.foldl_append]

/-- The start of the process, with what is in the files and what the user will type. -/
def start (files : Text → Text) (stdin : Text) : St := { files := files, stdin := stdin }

theorem inForce_snoc (es : List Ev) (e : Ev) : inForce (es ++ [e]) = (match e with | .name (some f) => f | .purge => defaultName | _ => inForce es) := by
  unfold inForce
  rw [List.reverse_append]
  cases e with
  | name f => cases f <;> simp
  | _ => simp

theorem state (w : World) (files : Text → Text) (stdin : Text) (es : List Ev) (hq : Quiet w es) :
    (run w (start files stdin) es).exited = false ∧ nameOf (run w (start files stdin) es) = inForce es ∧
    (run w (start files stdin) es).clock = es.countP (fun e => (logs w e).isSome) ∧
    ((run w (start files stdin) es).fresh = decide (∀ e ∈ es, logs w e = none)) ∧
    (run w (start files stdin) es).err = es.flatMap prints := by
  induction es using snoc_ind with
  | h0 => exact ⟨rfl, rfl, rfl, by simp [run, start], rfl⟩
  | h1 es e ih =>
    obtain ⟨h1, h2, h3, h4, h5⟩ := ih hq.left
    obtain ⟨g1, g2, g3, g4⟩ := step_quiet w _ e h1 hq.right
    rw [run_snoc, inForce_snoc]
    refine ⟨g1, ?_, ?_, ?_, ?_⟩
    · rw [g3]; cases e with
      | name f => cases f <;> simp [h2]
      | _ => simp [h2]
    · rw [List.countP_append, ← h3]
      cases hl : logs w e with
      | none => rw [hl] at g4; simp [g4.2.2, hl]
      | some t => rw [hl] at g4; simp [g4.2.1, hl]
    · cases hl : logs w e with
      | none =>
        rw [hl] at g4; rw [g4.2.1, h4]
        congr 1
        simp only [List.mem_append, List.mem_singleton, eq_iff_iff]
        constructor
        · rintro h x (hx | rfl)
          · exact h x hx
          · exact hl
        · intro h x hx; exact h x (Or.inl hx)
      | some t =>
        rw [hl] at g4; rw [g4.1]
        symm
        rw [decide_eq_false_iff_not]
        intro h
        have := h e (by simp)
        rw [hl] at this; cases this
    · rw [g2, h5]; simp

/-- **C155, printed.**  Every message reported is on the error stream, once, in order, and nothing else. -/
theorem c155_printed (w : World) (files : Text → Text) (stdin : Text) (es : List Ev) (hq : Quiet w es) :
    (run w (start files stdin) es).err = es.flatMap prints ∧ (run w (start files stdin) es).exited = false :=
  ⟨(state w files stdin es hq).2.2.2.2, (state w files stdin es hq).1⟩

/-- **C155, logged.**  After any calls, the next one adds to the file in force, if it can be opened, the line it should, with the time; before the first line of the process the introduction; it touches no other file. -/
theorem c155_logged (w : World) (files : Text → Text) (stdin : Text) (es : List Ev) (e : Ev) (hq : Quiet w (es ++ [e])) (g : Text) :
    (run w (start files stdin) (es ++ [e])).files g = (run w (start files stdin) es).files g ++
      (match logs w e with
        | some t => if g = inForce es ∧ w.writable g then
            (if ∀ x ∈ es, logs w x = none then header w else []) ++ w.date (es.countP fun x => (logs w x).isSome) ++ [':', ' '] ++ t ++ ['\n']
          else []
        | none => []) := by
  obtain ⟨h1, h2, h3, h4, h5⟩ := state w files stdin es hq.left
  obtain ⟨g1, g2, g3, g4⟩ := step_quiet w _ e h1 hq.right
  rw [run_snoc]
  cases hl : logs w e with
  | none => rw [hl] at g4; simp [g4.1]
  | some t =>
    rw [hl] at g4
    rw [g4.2.2, h2, h3, h4]
    unfold append
    by_cases hg : g = inForce es
    · subst hg
      by_cases hw : w.writable (inForce es) = true
      · simp [hw]
      · simp [hw]
    · simp [hg]

/-- **C155, a session.**  A log file is named, then messages are reported: the file holds what it held, the introduction, and a line for each of them in order. -/
theorem c155_session (w : World) (files : Text → Text) (stdin : Text) (f : Text) (h0 : '\x00' ∉ f) (hl : w.logging = true) (hw : w.writable f = true) (ms : List (Kind × Msg)) (hm : ms ≠ [])
    (hq : ∀ m ∈ ms, ¬ Asked w m.1) :
    (run w (start files stdin) (.name (some f) :: ms.map fun m => .report m.1 m.2)).files f =
      files f ++ header w ++ (ms.zipIdx.flatMap fun m => w.date m.2 ++ [':', ' '] ++ reading m.1.1 m.1.2 ++ ['\n']) := by
  induction ms using snoc_ind with
  | h0 => exact absurd rfl hm
  | h1 ms m ih =>
    have hQ : Quiet w ((.name (some f) :: ms.map fun m => Ev.report m.1 m.2) ++ [.report m.1 m.2]) := by
      refine ⟨?_, ?_⟩
      · intro k x hx
        simp only [List.cons_append, List.mem_cons, List.mem_append, List.mem_map, reduceCtorEq, false_or, List.not_mem_nil, or_false] at hx
        rcases hx with ⟨y, hy, he⟩ | he
        · cases he; exact hq y (List.mem_append_left _ hy)
        · cases he; exact hq m (by simp)
      · intro g hg
        simp only [List.cons_append, List.mem_cons, List.mem_append, List.mem_map, reduceCtorEq, and_false, exists_false, List.not_mem_nil, or_false] at hg
        cases hg; exact h0
    have := c155_logged w files stdin _ _ hQ f
    have hf : inForce (.name (some f) :: ms.map fun m => Ev.report m.1 m.2) = f := by
      clear this hQ ih hm hq
      induction ms using snoc_ind with
      | h0 => rfl
      | h1 l a ih => rw [List.map_append, ← List.cons_append]; simp only [List.map_cons, List.map_nil]; rw [inForce_snoc]; exact ih
    have hc : (.name (some f) :: ms.map fun m => Ev.report m.1 m.2).countP (fun x => (logs w x).isSome) = ms.length := by
      clear this hQ ih hm hq hf
      induction ms with
      | nil => rfl
      | cons a r ih => simp [logs, hl] at ih ⊢
    rw [List.map_append, ← List.cons_append]
    simp only [List.map_cons, List.map_nil]
    rw [this, hf, hc]
    simp only [logs, hl, hw, if_true, and_self]
    rw [List.zipIdx_append, List.flatMap_append]
    cases ms with
    | nil =>
      rw [if_pos (by simp)]
      simp [run, step, start, St.setName]
    | cons a r =>
      rw [ih (by simp) (fun m hm => hq m (List.mem_append_left _ hm))]
      rw [if_neg (by
        intro h
        have := h (.report a.1 a.2) (by simp)
        simp at this)]
      simp

theorem chunk_line (n : Nat) (l r : Text) (h : l.length ≤ n) (hn : '\n' ∉ l) : chunk (n + 1) (l ++ '\n' :: r) = (l ++ ['\n'], r) := by
  induction l generalizing n with
  | nil => simp [chunk]
  | cons c l ih =>
    obtain ⟨m, rfl⟩ : ∃ m, n = m + 1 := ⟨n - 1, by simp at h; omega⟩
    have hc : c ≠ '\n' := fun e => hn (by rw [e]; exact List.mem_cons_self)
    have := ih m (by simpa using h) (fun e => hn (List.mem_cons_of_mem _ e))
    rw [List.cons_append, chunk, if_neg hc, this]
    rfl

theorem isCmd_line (l : Text) (u v : Char) (hn : '\n' ∉ l) : isCmd (l ++ ['\n']) u v = true ↔ l = [u] ∨ l = [v] := by
  match l with
  | [] => simp [isCmd]
  | [a] => simp [isCmd]
  | a :: b :: r =>
    have : b ≠ '\n' := fun e => hn (by simp [e])
    simp [isCmd, this]

theorem stackLine_rest (w : World) (s : St) (m : Text) : (s.stackLine w m).err = s.err ++ (m ++ ['\n']) ∧ (s.stackLine w m).exited = s.exited := by
  unfold St.stackLine
  cases w.logging with
  | false => simp [St.say]
  | true =>
    obtain ⟨_, _, _, h4, h5⟩ := ensure_rest (s.say (m ++ "\n".toList))
    simp only [if_true, St.printToLog, h4, h5]
    simp [St.say]

theorem printStack_rest (w : World) (s : St) : (s.printStack w).err = s.err ++ ("Execution path:".toList :: w.trace).flatMap (· ++ ['\n']) ∧ (s.printStack w).exited = s.exited := by
  unfold St.printStack
  have : ∀ (l : List Text) (s : St), (l.foldl (St.stackLine w) s).err = s.err ++ l.flatMap (· ++ ['\n']) ∧ (l.foldl (St.stackLine w) s).exited = s.exited := by
    intro l
    induction l with
    | nil => simp
    | cons a r ih =>
      intro s
      obtain ⟨h1, h2⟩ := ih (s.stackLine w a)
      obtain ⟨g1, g2⟩ := stackLine_rest w s a
      rw [List.foldl_cons, h1, h2, g1, g2]
      simp
  obtain ⟨h1, h2⟩ := this w.trace (s.stackLine w "Execution path:".toList)
  obtain ⟨g1, g2⟩ := stackLine_rest w s "Execution path:".toList
  rw [h1, h2, g1, g2]
  simp

/-- **C155, the user decides** (short lines).  At a terminal: the program goes on if the first line that is `P` or `E` is `P`, exits if it is `E` or there is none; `S` shows the stack; lines after the decision are
not touched.  Only for lines of at most 6 characters: see `c155_decides_refuted`. -/
theorem c155_decides_partial (w : World) (ls : List Text) (s : St) (ht : w.tty = true) (hx : s.exited = false) (hl : ∀ l ∈ ls, l.length ≤ 6 ∧ '\n' ∉ l) :
    (prompt w (typed ls) s).exited = !(decision ls).1 ∧ (prompt w (typed ls) s).stdin = typed (decision ls).2 ∧ (prompt w (typed ls) s).err = s.err ++ dialogue w ls := by
  induction ls generalizing s with
  | nil =>
    rw [typed, List.flatMap_nil, prompt]
    simp [ht, decision, dialogue, St.abort, St.say, typed]
  | cons l r ih =>
    obtain ⟨h6, hn⟩ := hl l List.mem_cons_self
    have hk : chunk (6 + 1) (typed (l :: r)) = (l ++ ['\n'], typed r) := by
      have : typed (l :: r) = l ++ '\n' :: typed r := by simp [typed]
      rw [this]; exact chunk_line 6 l _ h6 hn
    obtain ⟨c, t, hct⟩ : ∃ c t, typed (l :: r) = c :: t := by
      cases l with
      | nil => exact ⟨_, _, rfl⟩
      | cons a b => exact ⟨_, _, rfl⟩
    have hE := isCmd_line l 'E' 'e' hn
    have hP := isCmd_line l 'P' 'p' hn
    have hS := isCmd_line l 'S' 's' hn
    have hr : ∀ m ∈ r, m.length ≤ 6 ∧ '\n' ∉ m := fun m hm => hl m (List.mem_cons_of_mem _ hm)
    rw [hct] at hk ⊢
    rw [prompt]
    simp only [ht, if_true, hk]
    by_cases e1 : l = ['E'] ∨ l = ['e']
    · have hnp : ¬ (l = ['P'] ∨ l = ['p']) := by rcases e1 with rfl | rfl <;> decide
      rw [if_pos (hE.2 e1)]
      simp [decision, dialogue, hnp, e1, St.abort, St.say]
    · rw [if_neg (fun h => e1 (hE.1 h))]
      by_cases e2 : l = ['P'] ∨ l = ['p']
      · rw [if_pos (hP.2 e2)]
        simp [decision, dialogue, e2, St.say, hx]
      · rw [if_neg (fun h => e2 (hP.1 h))]
        by_cases e3 : l = ['S'] ∨ l = ['s']
        · rw [if_pos (hS.2 e3)]
          obtain ⟨p1, p2⟩ := printStack_rest w (s.say (question w))
          obtain ⟨i1, i2, i3⟩ := ih ((s.say (question w)).printStack w) (by rw [p2]; exact hx) hr
          rw [i1, i2, i3, p1]
          simp only [decision, dialogue, if_neg e1, if_neg e2, if_pos e3, St.say, List.append_assoc]
          exact ⟨trivial, trivial, trivial⟩
        · rw [if_neg (fun h => e3 (hS.1 h))]
          obtain ⟨i1, i2, i3⟩ := ih (s.say (question w)) hx hr
          rw [i1, i2, i3]
          simp only [decision, dialogue, if_neg e1, if_neg e2, if_neg e3, St.say, List.append_assoc, List.nil_append]
          exact ⟨trivial, trivial, trivial⟩

/-- A terminal, prompts for errors, logging. -/
def exampleWorld : World where
  logging := true
  eprompt := true
  wprompt := false
  tty := true
  pid := ['7']
  date := fun _ => ['T']
  trace := [['f']]
  writable := fun _ => true

/-- **C155, a long line is taken for a decision.**  The user answers first `1234567E`, which is neither, and then `P`: the program exits.  The buffer holds 7 characters, and the rest of the line is taken for an answer. -/
theorem c155_decides_refuted : (decision ["1234567E".toList, "P".toList]).1 = true ∧ (prompt exampleWorld (typed ["1234567E".toList, "P".toList]) {}).exited = true := by
  refine ⟨by decide, ?_⟩
  have h : typed ["1234567E".toList, "P".toList] = '1' :: "234567E\nP\n".toList := by decide
  rw [h, prompt]
  have k : chunk (6 + 1) ('1' :: "234567E\nP\n".toList) = ("1234567".toList, 'E' :: "\nP\n".toList) := by decide
  have k2 : chunk (6 + 1) ('E' :: "\nP\n".toList) = ("E\n".toList, "P\n".toList) := by decide
  simp only [exampleWorld, if_true, k]
  rw [if_neg (by decide), if_neg (by decide), if_neg (by decide), prompt]
  simp only [if_true, k2]
  rw [if_pos (by decide)]
  rfl

/-- **C155, no terminal.**  Without a terminal a message that asks ends the process at once, whatever is in the input, after it has been printed. -/
theorem c155_no_terminal (w : World) (s : St) (k : Kind) (m : Msg) (ht : w.tty = false) (ha : Asked w k) (hx : s.exited = false) :
    (step w s (.report k m)).exited = true ∧ (step w s (.report k m)).err = s.err ++ reading k m ++ ['\n'] ++ question w ++ "aborting...\n".toList := by
  have : ∀ (inp : Text) (s : St), prompt w inp s = (s.say (question w)).abort := by
    intro inp s
    rw [prompt.eq_def]
    cases inp <;> simp [ht]
  have ha := (asks_iff w k).2 ha
  simp only [step, hx, St.handle, ha, if_true, this, ← text_reading]
  refine ⟨rfl, ?_⟩
  cases hl : w.logging with
  | false => simp [St.abort, St.say]
  | true =>
    obtain ⟨_, _, _, h4, _⟩ := ensure_rest (s.say (text k m ++ "\n".toList))
    simp only [St.abort, St.say, if_true, St.printToLog]
    simp only [St.say] at h4
    rw [h4]
    simp

/-- After an exit nothing more is done. -/
theorem c155_exit (w : World) (s : St) (es : List Ev) (hx : s.exited = true) : run w s es = s := by
  induction es with
  | nil => rfl
  | cons e r ih => simp only [run, List.foldl_cons] at ih ⊢; rw [show step w s e = s by simp [step, hx]]; exact ih

/-- A short line, `s`, `P`, and what follows. -/
theorem c155_example : (prompt exampleWorld (typed ["no".toList, "s".toList, "P".toList, "E".toList]) {}).exited = false ∧
    (prompt exampleWorld (typed ["no".toList, "s".toList, "P".toList, "E".toList]) {}).stdin = "E\n".toList := by
  obtain ⟨h1, h2, -⟩ := c155_decides_partial exampleWorld ["no".toList, "s".toList, "P".toList, "E".toList] {} rfl rfl (by decide)
  rw [h1, h2]
  exact ⟨by decide, by decide⟩

/-- A session with two warnings. -/
theorem c155_session_example : (run exampleWorld (start (fun _ => ['o']) []) [.name (some "a.log".toList), .report .warning (.plain ['x']), .report .info (.offset (some ['f']) 3 none)]).files "a.log".toList =
    ['o'] ++ header exampleWorld ++ "T: WARNING: x\nT: INFO: f:3\n".toList := by
  have := c155_session exampleWorld (fun _ => ['o']) [] "a.log".toList (by decide) rfl rfl [(.warning, .plain ['x']), (.info, .offset (some ['f']) 3 none)] (by simp) (by simp [Asked, exampleWorld])
  simp only [List.map_cons, List.map_nil] at this
  rw [this]
  congr 1

end Verif.Logging
