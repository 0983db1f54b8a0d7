import Verif.Config.Spec
import Verif.Props.Route
import Verif.Props.Listen
set_option autoImplicit false
/-!
C150: who gets commands, lookups and updates is what the configuration says.
-/
namespace Verif.Config
open Verif.Route
open Verif.Listen (Listed Blanks Word isBlank parseArgs argsLoop)

/-! ### Latest -/

theorem latest_nil {X : Type} (f : Act → Option X) (x : X) : Latest f [] x ↔ False := by simp [Latest]

theorem latest_append_iff {X : Type} (f : Act → Option X) (h k : List Act) (x : X) :
    Latest f (h ++ k) x ↔ Latest f k x ∨ (∀ b ∈ k, f b = none) ∧ Latest f h x := by
  induction k using hist_ind with
  | h0 => simp [latest_nil]
  | h1 k a ih =>
    rw [← List.append_assoc, latest_snoc, latest_snoc, ih]
    constructor
    · rintro (h | ⟨h, h' | ⟨h1, h2⟩⟩)
      · exact .inl (.inl h)
      · exact .inl (.inr ⟨h, h'⟩)
      · refine .inr ⟨fun b hb => ?_, h2⟩
        rcases List.mem_append.1 hb with hb | hb
        · exact h1 b hb
        · rw [List.mem_singleton.1 hb]; exact h
    · rintro ((h | ⟨h, h'⟩) | ⟨h1, h2⟩)
      · exact .inl h
      · exact .inr ⟨h, .inl h'⟩
      · exact .inr ⟨h1 a (by simp), .inr ⟨fun b hb => h1 b (by simp [hb]), h2⟩⟩

theorem latest_one {X : Type} (f : Act → Option X) (a : Act) (x : X) : Latest f [a] x ↔ f a = some x := by
  have := latest_snoc f [] a x
  simpa [latest_nil] using this

theorem none_iff {X : Type} (f : Act → Option X) (h : List Act) : (∀ a ∈ h, f a = none) ↔ ∀ x, ¬ Latest f h x := by
  induction h using hist_ind with
  | h0 => simp [latest_nil]
  | h1 k a ih =>
    simp only [latest_snoc, not_or, not_and]
    constructor
    · intro h x
      refine ⟨by rw [h a (by simp)]; simp, fun _ => ih.1 (fun b hb => h b (by simp [hb])) x⟩
    · intro h
      have ha : f a = none := by
        cases e : f a with
        | none => rfl
        | some x => exact absurd e (h x).1
      intro b hb
      rcases List.mem_append.1 hb with hb | hb
      · exact ih.2 (fun x => (h x).2 ha) b hb
      · rw [List.mem_singleton.1 hb]; exact ha

/-- Registrations of single commands: each name has the handler given for it. -/
theorem latest_singles (g : String → CmdHandler) (name : String) (ns : List String) : ∀ H : CmdHandler,
    Latest (forCommand name) ((ns.map fun n => Reg.command (g n) n).map .reg) H ↔ name ∈ ns ∧ H = g name := by
  induction ns with
  | nil => simp [latest_nil]
  | cons n ns ih =>
    intro H
    have e : ((n :: ns).map fun n => Reg.command (g n) n).map Act.reg = [.reg (.command (g n) n)] ++ (ns.map fun n => Reg.command (g n) n).map .reg := by simp
    rw [e, latest_append_iff, ih, latest_one, none_iff]
    have ih' := ih
    simp only [forCommand, List.mem_cons, ih']
    by_cases h1 : name ∈ ns
    · simp only [h1, true_and, or_true]
      constructor
      · rintro (h | ⟨h, _⟩)
        · exact h
        · exact absurd rfl (h (g name))
      · exact .inl
    · by_cases h2 : name = n
      · subst h2; simp [h1, eq_comm]
      · simp [h1, h2]

theorem none_singles {X : Type} (f : Act → Option X) (g : String → CmdHandler) (ns : List String) (h : ∀ n, f (.reg (.command (g n) n)) = none) :
    ∀ a ∈ (ns.map fun n => Reg.command (g n) n).map Act.reg, f a = none := by
  intro a ha
  simp only [List.map_map, List.mem_map, Function.comp] at ha
  obtain ⟨n, _, rfl⟩ := ha
  exact h n

/-! ### Documents -/

theorem has_iff (x : Xml) (tag : String) : x.has tag = true ↔ Child x tag := by simp [Xml.has, Child]

theorem argsLoop_blanks : ∀ (n : Nat) (s : List Char), Blanks s → argsLoop n s = [] := by
  intro n s h
  cases n with
  | zero => rfl
  | succ n =>
    have : s.dropWhile isBlank = [] := by
      induction s with
      | nil => rfl
      | cons c s ih =>
        rw [List.dropWhile_cons, if_pos (h c (by simp))]
        exact ih (fun d hd => h d (by simp [hd]))
    simp only [argsLoop, this]

theorem mem_namesIn (x : Xml) (tag name : String) (hw : WellListed x tag) : name ∈ namesIn x tag ↔ Lists x tag name := by
  simp only [namesIn, Lists, List.mem_flatMap, Xml.named, List.mem_filter, decide_eq_true_eq, List.mem_map]
  constructor
  · rintro ⟨k, ⟨hk, ht⟩, w, hw', rfl⟩
    refine ⟨k, hk, ht, ?_⟩
    rcases hw k hk ht with h | ⟨ns, h⟩
    · rw [show parseArgs _ = [] from argsLoop_blanks _ _ h] at hw'; simp at hw'
    · rw [Verif.Listen.c90_names_partial _ _ h] at hw'
      exact ⟨ns, h, by simpa using hw'⟩
  · rintro ⟨k, hk, ht, ns, h, hn⟩
    exact ⟨k, ⟨hk, ht⟩, name.toList, by rw [Verif.Listen.c90_names_partial _ _ h]; exact hn, by simp⟩

theorem first_unique {x : Xml} {tag : String} {e e' : Xml} (h : FirstChild x tag e) (h' : FirstChild x tag e') : e = e' := by
  obtain ⟨p, q, hk, he, hp⟩ := h
  obtain ⟨p', q', hk', he', hp'⟩ := h'
  rw [hk] at hk'
  clear hk
  induction p generalizing p' with
  | nil =>
    cases p' with
    | nil => simp at hk'; exact hk'.1
    | cons b p' => simp at hk'; exact absurd (hk'.1 ▸ he) (hp' b (by simp))
  | cons a p ih =>
    cases p' with
    | nil => simp at hk'; exact absurd (hk'.1 ▸ he') (hp a (by simp))
    | cons b p' =>
      simp only [List.cons_append, List.cons.injEq] at hk'
      exact ih (fun k hk => hp k (by simp [hk])) p' hk'.2 (fun k hk => hp' k (by simp [hk]))

theorem named_first (x : Xml) (tag : String) : (x.named tag = [] ∧ ∀ e, ¬ FirstChild x tag e) ∨ ∃ e r, x.named tag = e :: r ∧ FirstChild x tag e := by
  unfold Xml.named FirstChild
  generalize x.kids = ks
  induction ks with
  | nil => exact .inl ⟨rfl, fun e => by rintro ⟨p, q, h, _⟩; simp at h⟩
  | cons k ks ih =>
    by_cases hk : k.name = tag
    · exact .inr ⟨k, ks.filter (fun k => k.name = tag), by simp [hk], [], ks, rfl, hk, by simp⟩
    · rcases ih with ⟨h1, h2⟩ | ⟨e, r, h1, p, q, hs, he, hp⟩
      · refine .inl ⟨by simp [hk, h1], ?_⟩
        rintro e ⟨p, q, h, he, hp⟩
        cases p with
        | nil => simp at h; exact hk (h.1 ▸ he)
        | cons a p =>
          simp only [List.cons_append, List.cons.injEq] at h
          exact h2 e ⟨p, q, h.2, he, fun k' hk' => hp k' (by simp [hk'])⟩
      · refine .inr ⟨e, r, by simp [hk, h1], k :: p, q, by simp [hs], he, ?_⟩
        intro k' hk'
        rcases List.mem_cons.1 hk' with rfl | hk'
        · exact hk
        · exact hp k' hk'

/-- The declarations, in order: each readable, or named before. -/
def Fine (typed : String → String → Bool) (names : List String) (l : Xml) : Prop :=
  ∃ n t v, l.attr? "name" = some n ∧ l.attr? "type" = some t ∧ l.attr? "value" = some v ∧ (n ∈ names ∨ typed t v = true)

theorem external1_iff (typed : String → String → Bool) (names r : List String) (l : Xml) : external1 typed names l = some r ↔
    Fine typed names l ∧ ∃ n, l.attr? "name" = some n ∧ r = if n ∈ names then names else names ++ [n] := by
  unfold external1 Fine
  cases h1 : l.attr? "name" with
  | none => simp
  | some n => cases h2 : l.attr? "type" with
    | none => simp
    | some t => cases h3 : l.attr? "value" with
      | none => simp
      | some v =>
        by_cases hn : n ∈ names
        · simp [hn]; exact eq_comm
        · by_cases ht : typed t v = true
          · simp [hn, ht]; exact eq_comm
          · simp [hn, ht]

theorem externalLoop_iff (typed : String → String → Bool) : ∀ (ls : List Xml) (names : List String),
    ((∃ r, externalLoop typed names ls = some r) ↔ ∀ pre l post, ls = pre ++ l :: post →
      ∃ n t v, l.attr? "name" = some n ∧ l.attr? "type" = some t ∧ l.attr? "value" = some v ∧ ((n ∈ names ∨ ∃ m ∈ pre, m.attr? "name" = some n) ∨ typed t v = true)) ∧
    ∀ r, externalLoop typed names ls = some r → ∀ n, n ∈ r ↔ n ∈ names ∨ ∃ l ∈ ls, l.attr? "name" = some n := by
  intro ls
  induction ls with
  | nil => intro names; simp [externalLoop]
  | cons l ls ih =>
    intro names
    constructor
    · constructor
      · rintro ⟨r, h⟩
        simp only [externalLoop, Option.bind_eq_some_iff] at h
        obtain ⟨n', h1, h2⟩ := h
        obtain ⟨⟨n, t, v, a1, a2, a3, a4⟩, m, b1, b2⟩ := (external1_iff _ _ _ _).1 h1
        rw [a1] at b1; cases b1
        intro pre k post hs
        cases pre with
        | nil =>
          simp only [List.nil_append, List.cons.injEq] at hs
          obtain ⟨rfl, rfl⟩ := hs
          exact ⟨n, t, v, a1, a2, a3, a4.elim (fun h => .inl (.inl h)) .inr⟩
        | cons p pre =>
          simp only [List.cons_append, List.cons.injEq] at hs
          obtain ⟨rfl, hs⟩ := hs
          obtain ⟨n2, t2, v2, c1, c2, c3, c4⟩ := ((ih n').1.1 ⟨r, h2⟩) pre k post hs
          refine ⟨n2, t2, v2, c1, c2, c3, ?_⟩
          rcases c4 with (c4 | ⟨m2, c4, c5⟩) | c4
          · rw [b2] at c4
            split at c4
            · exact .inl (.inl c4)
            · rcases List.mem_append.1 c4 with c4 | c4
              · exact .inl (.inl c4)
              · rw [List.mem_singleton.1 c4]; exact .inl (.inr ⟨l, by simp, a1⟩)
          · exact .inl (.inr ⟨m2, by simp [c4], c5⟩)
          · exact .inr c4
      · intro h
        obtain ⟨n, t, v, a1, a2, a3, a4⟩ := h [] l ls rfl
        have a4 : n ∈ names ∨ typed t v = true := by simpa using a4
        have h1 := (external1_iff typed names (if n ∈ names then names else names ++ [n]) l).2 ⟨⟨n, t, v, a1, a2, a3, a4⟩, n, a1, rfl⟩
        obtain ⟨r, hr⟩ := (ih (if n ∈ names then names else names ++ [n])).1.2 (by
          intro pre k post hs
          obtain ⟨n2, t2, v2, c1, c2, c3, c4⟩ := h (l :: pre) k post (by simp [hs])
          refine ⟨n2, t2, v2, c1, c2, c3, ?_⟩
          rcases c4 with (c4 | ⟨m2, c4, c5⟩) | c4
          · refine .inl (.inl ?_); split <;> simp [c4]
          · rcases List.mem_cons.1 c4 with rfl | c4
            · rw [a1] at c5; cases c5
              refine .inl (.inl ?_); split <;> simp_all
            · exact .inl (.inr ⟨m2, c4, c5⟩)
          · exact .inr c4)
        exact ⟨r, by simp only [externalLoop, h1, Option.bind_some]; exact hr⟩
    · intro r h n
      simp only [externalLoop, Option.bind_eq_some_iff] at h
      obtain ⟨n', h1, h2⟩ := h
      obtain ⟨_, m, b1, b2⟩ := (external1_iff _ _ _ _).1 h1
      rw [(ih n').2 r h2 n, b2]
      by_cases hm : m ∈ names
      · simp only [if_pos hm, List.mem_cons, exists_eq_or_imp, b1, Option.some.injEq]
        constructor
        · rintro (h | h)
          · exact .inl h
          · exact .inr (.inr h)
        · rintro (h | rfl | h)
          · exact .inl h
          · exact .inl hm
          · exact .inr h
      · simp only [if_neg hm, List.mem_append, List.mem_cons, exists_eq_or_imp, b1, Option.some.injEq, or_assoc, List.not_mem_nil, false_or]
        exact or_congr Iff.rfl (or_congr eq_comm Iff.rfl)

theorem external_iff (typed : String → String → Bool) (x : Xml) :
    ((∃ r, external typed x = some r) ↔ ReadableLookups typed x) ∧ ∀ r, external typed x = some r → ∀ n, n ∈ r ↔ Declares x n := by
  unfold external
  rcases named_first x "ExternalLookups" with ⟨h1, h2⟩ | ⟨e, rr, h1, h2⟩
  · rw [h1]
    refine ⟨⟨fun _ e he => absurd he (h2 e), fun _ => ⟨_, rfl⟩⟩, ?_⟩
    intro r h n
    cases h
    simp only [List.not_mem_nil, false_iff]
    rintro ⟨e, he, _⟩
    exact h2 e he
  · rw [h1]
    simp only
    have L := externalLoop_iff typed (e.named "Lookup") []
    constructor
    · rw [L.1]
      constructor
      · intro h e' he' pre l post hs hl
        obtain rfl := first_unique h2 he'
        obtain ⟨n, t, v, a1, a2, a3, a4⟩ := h (pre.filter (fun k => k.name = "Lookup")) l (post.filter (fun k => k.name = "Lookup"))
          (by simp [Xml.named, hs, hl])
        refine ⟨n, t, v, a1, a2, a3, ?_⟩
        rcases a4 with (a4 | ⟨m, a4, a5⟩) | a4
        · simp at a4
        · have := List.mem_filter.1 a4
          exact .inl ⟨m, this.1, by simpa using this.2, a5⟩
        · exact .inr a4
      · intro h pre l post hs
        obtain ⟨l1, l2, hk, e1, e2⟩ := List.filter_eq_append_iff.1 hs
        obtain ⟨l3, l4, hk2, e3, e4, e5⟩ := List.filter_eq_cons_iff.1 e2
        obtain ⟨n, t, v, a1, a2, a3, a4⟩ := h e h2 (l1 ++ l3) l l4 (by rw [hk, hk2]; simp) (by simpa using e4)
        refine ⟨n, t, v, a1, a2, a3, ?_⟩
        rcases a4 with ⟨m, a4, a5, a6⟩ | a4
        · refine .inl (.inr ⟨m, ?_, a6⟩)
          rw [← e1, List.mem_filter]
          rcases List.mem_append.1 a4 with a4 | a4
          · exact ⟨a4, by simpa using a5⟩
          · exact absurd a5 (by simpa using e3 m a4)
        · exact .inr a4
    · intro r h n
      rw [L.2 r h n]
      simp only [List.not_mem_nil, false_or, Xml.named, List.mem_filter, decide_eq_true_eq, Declares]
      constructor
      · rintro ⟨l, ⟨hl, h3⟩, h4⟩; exact ⟨e, h2, l, hl, h3, h4⟩
      · rintro ⟨e', he', l, hl, h3, h4⟩
        obtain rfl := first_unique h2 he'
        exact ⟨l, ⟨hl, h3⟩, h4⟩

/-! ### One adapter -/

theorem create_some {w : World} {x : Xml} {a : Adapter} (h : create w x = some a) :
    a.xml = x ∧ x.name = "Adapter" ∧ x.attr "AdapterType" ≠ "" ∧ w.kind (x.attr "AdapterType") = some a.kind ∧ parseAdapter x = some a.conf := by
  simp only [create, Option.bind_eq_some_iff, Option.map_eq_some_iff] at h
  obtain ⟨c, h1, k, h2, rfl⟩ := h
  have h3 := h1
  simp only [parseAdapter] at h1
  split at h1
  · cases h1
  · rename_i hn
    split at h1
    · cases h1
    · rename_i ht
      simp only [Option.some.injEq] at h1
      subst h1
      exact ⟨rfl, Classical.byContradiction hn, ht, h2, h3⟩

theorem conf_of {x : Xml} {c : Conf} (h : parseAdapter x = some c) :
    (c.defaultCommand = true ↔ DefaultCommands x) ∧ (c.defaultLookup = true ↔ DefaultLookups x) ∧
    (c.updates = true ↔ Child x "PlannerUpdate" ∨ Child x "DefaultAdapter") ∧
    (¬ DefaultCommands x → c.commandNames = namesIn x "CommandNames") ∧ (¬ DefaultLookups x → c.lookupNames = namesIn x "LookupNames") := by
  simp only [parseAdapter] at h
  split at h
  · cases h
  · split at h
    · cases h
    · simp only [Option.some.injEq] at h
      subst h
      simp only [DefaultCommands, DefaultLookups, ← has_iff, Bool.or_eq_true]
      refine ⟨trivial, trivial, trivial, fun h => ?_, fun h => ?_⟩
      · rw [if_neg h]
      · rw [if_neg h]

/-- The registrations, as acts. -/
def acts (rs : List Reg) : List Act := rs.map .reg

theorem acts_append (a b : List Reg) : acts (a ++ b) = acts a ++ acts b := List.map_append

/-- The parts of what the IPC adapter registers. -/
theorem ipc_parts {typed : String → String → Bool} {num : Role → Nat} {x : Xml} {c : Conf} {rs : List Reg} (h : ipcRegs typed num x c = some rs) :
    ∃ ext, external typed x = some ext ∧ acts rs =
      (acts (ipcCommands.map (fun n => .command (.object (num (.own n))) n)) ++
      acts (if c.defaultCommand then [.cmdDefault (.object (num .commands))]
        else if c.commandNames.isEmpty then [] else [.commands (.object (num .commands)) c.commandNames])) ++
      acts (if c.defaultLookup then [.lkDefault (.object (num .lookups))]
        else if c.lookupNames.isEmpty && ext.isEmpty then []
        else [.lookups (.object (num .lookups)) c.lookupNames, .lookups (.object (num .lookups)) ext]) ++
      acts (if c.updates then [.update (some (num .updates))] else []) := by
  simp only [ipcRegs, Option.map_eq_some_iff] at h
  obtain ⟨ext, h1, rfl⟩ := h
  exact ⟨ext, h1, by simp only [acts_append]⟩

section
variable {typed : String → String → Bool} {num : Role → Nat} {x : Xml} {c : Conf} {rs : List Reg}

theorem ipc_command (hc : parseAdapter x = some c) (h : ipcRegs typed num x c = some rs) (hw : WellListed x "CommandNames") (name : String) (H : CmdHandler) :
    Latest (forCommand name) (acts rs) H ↔
      (¬ DefaultCommands x ∧ Lists x "CommandNames" name ∧ H = .object (num .commands)) ∨
      (¬ (¬ DefaultCommands x ∧ Lists x "CommandNames" name) ∧ name ∈ ipcCommands ∧ H = .object (num (.own name))) := by
  obtain ⟨ext, he, e⟩ := ipc_parts h
  obtain ⟨d1, d2, d3, d4, d5⟩ := conf_of hc
  have n1 : ∀ b ∈ acts (if c.updates then [.update (some (num .updates))] else []), forCommand name b = none := by
    intro b hb; split at hb <;> simp [acts] at hb; subst hb; rfl
  have n2 : ∀ b ∈ acts (if c.defaultLookup then [.lkDefault (.object (num .lookups))]
        else if c.lookupNames.isEmpty && ext.isEmpty then []
        else [.lookups (.object (num .lookups)) c.lookupNames, .lookups (.object (num .lookups)) ext]), forCommand name b = none := by
    intro b hb
    split at hb
    · simp [acts] at hb; subst hb; rfl
    · split at hb
      · simp [acts] at hb
      · simp [acts] at hb; rcases hb with rfl | rfl <;> rfl
  have s : Latest (forCommand name) (acts (ipcCommands.map (fun n => .command (.object (num (.own n))) n))) H ↔
      name ∈ ipcCommands ∧ H = .object (num (.own name)) := latest_singles (fun n => .object (num (.own n))) name ipcCommands H
  rw [e, latest_append_iff, latest_append_iff, latest_append_iff, s]
  have l1 := (none_iff _ _).1 n1 H
  have l2 := (none_iff _ _).1 n2 H
  simp only [l1, l2, false_or]
  have t1 : (∀ b ∈ acts (if c.updates then [Reg.update (some (num .updates))] else []), forCommand name b = none) ↔ True := ⟨fun _ => trivial, fun _ => n1⟩
  have t2 := (⟨fun _ => trivial, fun _ => n2⟩ : (∀ b ∈ acts (if c.defaultLookup then [.lkDefault (.object (num .lookups))]
        else if c.lookupNames.isEmpty && ext.isEmpty then []
        else [.lookups (.object (num .lookups)) c.lookupNames, .lookups (.object (num .lookups)) ext]), forCommand name b = none) ↔ True)
  rw [t1, t2, true_and, true_and]
  by_cases hd : DefaultCommands x
  · rw [if_pos (d1.2 hd)]
    simp only [hd, not_true_eq_false, false_and, not_false_eq_true, true_and, false_or]
    simp [acts, latest_one, forCommand]
  · rw [if_neg (fun h => hd (d1.1 h)), d4 hd]
    have hm := mem_namesIn x "CommandNames" name hw
    simp only [hd, not_false_eq_true, true_and, ← hm]
    by_cases hn : name ∈ namesIn x "CommandNames"
    · have : (namesIn x "CommandNames").isEmpty = false := by
        cases hx : namesIn x "CommandNames" with
        | nil => rw [hx] at hn; simp at hn
        | cons => rfl
      simp only [this, Bool.false_eq_true, if_false, hn, true_and, not_true_eq_false, false_and, or_false]
      simp [acts, latest_one, forCommand, hn, eq_comm]
    · split
      · simp [acts, latest_nil, hn]
      · simp [acts, latest_one, forCommand, hn]

theorem ipc_default (hc : parseAdapter x = some c) (h : ipcRegs typed num x c = some rs) (H : CmdHandler) :
    Latest forCmdDefault (acts rs) H ↔ DefaultCommands x ∧ H = .object (num .commands) := by
  obtain ⟨ext, he, e⟩ := ipc_parts h
  obtain ⟨d1, d2, d3, d4, d5⟩ := conf_of hc
  rw [e, latest_append_iff, latest_append_iff, latest_append_iff]
  have n0 : ∀ a ∈ acts (ipcCommands.map (fun n => .command (.object (num (.own n))) n)), forCmdDefault a = none :=
    none_singles forCmdDefault (fun n => .object (num (.own n))) ipcCommands (fun _ => rfl)
  have l0 := (none_iff _ _).1 n0 H
  have l3 : ∀ (q : Bool), ∀ b ∈ acts (if q then [.update (some (num .updates))] else []), forCmdDefault b = none := by
    intro q b hb; split at hb <;> simp [acts] at hb; subst hb; rfl
  have l2 : ∀ (q r : Bool) (a b : List String), ∀ z ∈ acts (if q then [.lkDefault (.object (num .lookups))] else if r then []
      else [.lookups (.object (num .lookups)) a, .lookups (.object (num .lookups)) b]), forCmdDefault z = none := by
    intro q r a b z hz
    split at hz
    · simp [acts] at hz; subst hz; rfl
    · split at hz
      · simp [acts] at hz
      · simp [acts] at hz; rcases hz with rfl | rfl <;> rfl
  have := (none_iff _ _).1 (l3 c.updates) H
  have k2 := (none_iff _ _).1 (l2 c.defaultLookup (c.lookupNames.isEmpty && ext.isEmpty) c.lookupNames ext) H
  simp only [this, k2, false_or, l0, and_false, or_false]
  constructor
  · rintro ⟨_, _, h⟩
    split at h
    · rename_i hq
      refine ⟨d1.1 hq, ?_⟩
      simpa [acts, latest_one, forCmdDefault, eq_comm] using h
    · split at h
      · simp [acts, latest_nil] at h
      · simp [acts, latest_one, forCmdDefault] at h
  · rintro ⟨hq, rfl⟩
    refine ⟨l3 _, l2 _ _ _ _, ?_⟩
    rw [if_pos (d1.2 hq)]
    simp [acts, latest_one, forCmdDefault]

theorem ipc_lookup (hc : parseAdapter x = some c) (h : ipcRegs typed num x c = some rs) (hw : WellListed x "LookupNames") (name : String) (H : LkHandler) :
    Latest (forLookup name) (acts rs) H ↔ ¬ DefaultLookups x ∧ (Lists x "LookupNames" name ∨ Declares x name) ∧ H = .object (num .lookups) := by
  obtain ⟨ext, he, e⟩ := ipc_parts h
  obtain ⟨d1, d2, d3, d4, d5⟩ := conf_of hc
  rw [e, latest_append_iff, latest_append_iff, latest_append_iff]
  have n0 : ∀ a ∈ acts (ipcCommands.map (fun n => .command (.object (num (.own n))) n)), forLookup name a = none :=
    none_singles (forLookup name) (fun n => .object (num (.own n))) ipcCommands (fun _ => rfl)
  have l0 := (none_iff _ _).1 n0 H
  have l3 : ∀ (q : Bool), ∀ b ∈ acts (if q then [.update (some (num .updates))] else []), forLookup name b = none := by
    intro q b hb; split at hb <;> simp [acts] at hb; subst hb; rfl
  have l1 : ∀ (q r : Bool) (a : List String), ∀ z ∈ acts (if q then [.cmdDefault (.object (num .commands))] else if r then []
      else [.commands (.object (num .commands)) a]), forLookup name z = none := by
    intro q r a z hz
    split at hz
    · simp [acts] at hz; subst hz; rfl
    · split at hz
      · simp [acts] at hz
      · simp [acts] at hz; subst hz; rfl
  have k3 := (none_iff _ _).1 (l3 c.updates) H
  have k1 := (none_iff _ _).1 (l1 c.defaultCommand c.commandNames.isEmpty c.commandNames) H
  simp only [k3, k1, false_or, l0, and_false, or_false]
  rw [and_iff_right (l3 _)]
  by_cases hd : DefaultLookups x
  · rw [if_pos (d2.2 hd)]
    simp [acts, latest_one, forLookup, hd]
  · rw [if_neg (fun h => hd (d2.1 h)), d5 hd, ← mem_namesIn x "LookupNames" name hw, ← (external_iff typed x).2 ext he name]
    simp only [hd, not_false_eq_true, true_and]
    have two : acts [Reg.lookups (.object (num .lookups)) (namesIn x "LookupNames"), .lookups (.object (num .lookups)) ext] =
      [.reg (.lookups (.object (num .lookups)) (namesIn x "LookupNames"))] ++ [.reg (.lookups (.object (num .lookups)) ext)] := rfl
    split
    · rename_i hz
      simp only [Bool.and_eq_true, List.isEmpty_iff] at hz
      simp [acts, latest_nil, hz.1, hz.2]
    · rw [two, latest_append_iff, latest_one, latest_one]
      simp only [forLookup, List.mem_singleton, forall_eq]
      by_cases h1 : name ∈ ext <;> by_cases h2 : name ∈ namesIn x "LookupNames" <;> simp [h1, h2, eq_comm]

theorem ipc_otherLookups (hc : parseAdapter x = some c) (h : ipcRegs typed num x c = some rs) (H : LkHandler) :
    Latest forLkDefault (acts rs) H ↔ DefaultLookups x ∧ H = .object (num .lookups) := by
  obtain ⟨ext, he, e⟩ := ipc_parts h
  obtain ⟨d1, d2, d3, d4, d5⟩ := conf_of hc
  rw [e, latest_append_iff, latest_append_iff, latest_append_iff]
  have n0 : ∀ a ∈ acts (ipcCommands.map (fun n => .command (.object (num (.own n))) n)), forLkDefault a = none :=
    none_singles forLkDefault (fun n => .object (num (.own n))) ipcCommands (fun _ => rfl)
  have l0 := (none_iff _ _).1 n0 H
  have l3 : ∀ (q : Bool), ∀ b ∈ acts (if q then [.update (some (num .updates))] else []), forLkDefault b = none := by
    intro q b hb; split at hb <;> simp [acts] at hb; subst hb; rfl
  have l1 : ∀ (q r : Bool) (a : List String), ∀ z ∈ acts (if q then [.cmdDefault (.object (num .commands))] else if r then []
      else [.commands (.object (num .commands)) a]), forLkDefault z = none := by
    intro q r a z hz
    split at hz
    · simp [acts] at hz; subst hz; rfl
    · split at hz
      · simp [acts] at hz
      · simp [acts] at hz; subst hz; rfl
  have k3 := (none_iff _ _).1 (l3 c.updates) H
  have k1 := (none_iff _ _).1 (l1 c.defaultCommand c.commandNames.isEmpty c.commandNames) H
  simp only [k3, k1, false_or, l0, and_false, or_false]
  rw [and_iff_right (l3 _)]
  by_cases hd : DefaultLookups x
  · rw [if_pos (d2.2 hd)]
    simp [acts, latest_one, forLkDefault, hd, eq_comm]
  · rw [if_neg (fun h => hd (d2.1 h))]
    simp only [hd, false_and, iff_false]
    split
    · simp [acts, latest_nil]
    · refine (none_iff _ _).1 ?_ H
      intro z hz
      simp [acts] at hz; rcases hz with rfl | rfl <;> rfl

theorem ipc_updates (hc : parseAdapter x = some c) (h : ipcRegs typed num x c = some rs) (H : Option Nat) :
    Latest forUpdate (acts rs) H ↔ (Child x "PlannerUpdate" ∨ Child x "DefaultAdapter") ∧ H = some (num .updates) := by
  obtain ⟨ext, he, e⟩ := ipc_parts h
  obtain ⟨d1, d2, d3, d4, d5⟩ := conf_of hc
  rw [e, latest_append_iff, latest_append_iff, latest_append_iff]
  have n0 : ∀ a ∈ acts (ipcCommands.map (fun n => .command (.object (num (.own n))) n)), forUpdate a = none :=
    none_singles forUpdate (fun n => .object (num (.own n))) ipcCommands (fun _ => rfl)
  have l0 := (none_iff _ _).1 n0 H
  have l1 : ∀ (q r : Bool) (a : List String), ∀ z ∈ acts (if q then [.cmdDefault (.object (num .commands))] else if r then []
      else [.commands (.object (num .commands)) a]), forUpdate z = none := by
    intro q r a z hz
    split at hz
    · simp [acts] at hz; subst hz; rfl
    · split at hz
      · simp [acts] at hz
      · simp [acts] at hz; subst hz; rfl
  have l2 : ∀ (q r : Bool) (a b : List String), ∀ z ∈ acts (if q then [.lkDefault (.object (num .lookups))] else if r then []
      else [.lookups (.object (num .lookups)) a, .lookups (.object (num .lookups)) b]), forUpdate z = none := by
    intro q r a b z hz
    split at hz
    · simp [acts] at hz; subst hz; rfl
    · split at hz
      · simp [acts] at hz
      · simp [acts] at hz; rcases hz with rfl | rfl <;> rfl
  have k1 := (none_iff _ _).1 (l1 c.defaultCommand c.commandNames.isEmpty c.commandNames) H
  have k2 := (none_iff _ _).1 (l2 c.defaultLookup (c.lookupNames.isEmpty && ext.isEmpty) c.lookupNames ext) H
  simp only [k1, k2, l0, and_false, or_false, ← d3]
  cases hu : c.updates
  · simp [acts, latest_nil]
  · simp [acts, latest_one, forUpdate, eq_comm]

end

/-! ### All adapters -/

section
variable {w : World} {x : Xml} {a : Adapter} {i : Nat} {r : List Reg}

theorem kind_regs (h : create w x = some a) (hr : a.regs w i = some r) : parseAdapter x = some a.conf ∧
    ((w.kind (x.attr "AdapterType") = some .ipc ∧ ipcRegs w.typed (w.num i) x a.conf = some r) ∨
     (w.kind (x.attr "AdapterType") = some .utility ∧ r = utilityRegs (w.num i)) ∨
     ∃ f, w.kind (x.attr "AdapterType") = some (.other f) ∧ f x = some r) := by
  obtain ⟨h1, h2, h3, h4, h5⟩ := create_some h
  refine ⟨h5, ?_⟩
  rw [h4]
  unfold Adapter.regs at hr
  split at hr <;> rename_i k
  · exact .inl ⟨by rw [k], h1 ▸ hr⟩
  · cases hr; exact .inr (.inl ⟨by rw [k], rfl⟩)
  · exact .inr (.inr ⟨_, by rw [k], h1 ▸ hr⟩)

theorem takesCommand_iff (h : create w x = some a) (hr : a.regs w i = some r) (hw : w.kind (x.attr "AdapterType") = some .ipc → WellListed x "CommandNames")
    (name : String) (H : CmdHandler) : Latest (forCommand name) (acts r) H ↔ TakesCommand w i x name H := by
  obtain ⟨hc, ⟨k, h1⟩ | ⟨k, rfl⟩ | ⟨f, k, h1⟩⟩ := kind_regs h hr <;> unfold TakesCommand <;> rw [k]
  · exact ipc_command hc h1 (hw k) name H
  · exact latest_singles (fun n => .functions (some (w.num i (.own n))) none) name printCommands H
  · simp only [h1, Option.some.injEq, exists_eq_left']; rfl

theorem takesOther_iff (h : create w x = some a) (hr : a.regs w i = some r) (H : CmdHandler) :
    Latest forCmdDefault (acts r) H ↔ TakesOtherCommands w i x H := by
  obtain ⟨hc, ⟨k, h1⟩ | ⟨k, rfl⟩ | ⟨f, k, h1⟩⟩ := kind_regs h hr <;> unfold TakesOtherCommands <;> rw [k]
  · exact ipc_default hc h1 H
  · exact iff_false_intro ((none_iff _ _).1 (none_singles forCmdDefault (fun n => .functions (some (w.num i (.own n))) none) printCommands (fun _ => rfl)) H)
  · simp only [h1, Option.some.injEq, exists_eq_left']; rfl

theorem takesLookup_iff (h : create w x = some a) (hr : a.regs w i = some r) (hw : w.kind (x.attr "AdapterType") = some .ipc → WellListed x "LookupNames")
    (name : String) (H : LkHandler) : Latest (forLookup name) (acts r) H ↔ TakesLookup w i x name H := by
  obtain ⟨hc, ⟨k, h1⟩ | ⟨k, rfl⟩ | ⟨f, k, h1⟩⟩ := kind_regs h hr <;> unfold TakesLookup <;> rw [k]
  · exact ipc_lookup hc h1 (hw k) name H
  · exact iff_false_intro ((none_iff _ _).1 (none_singles (forLookup name) (fun n => .functions (some (w.num i (.own n))) none) printCommands (fun _ => rfl)) H)
  · simp only [h1, Option.some.injEq, exists_eq_left']; rfl

theorem takesOtherLookups_iff (h : create w x = some a) (hr : a.regs w i = some r) (H : LkHandler) :
    Latest forLkDefault (acts r) H ↔ TakesOtherLookups w i x H := by
  obtain ⟨hc, ⟨k, h1⟩ | ⟨k, rfl⟩ | ⟨f, k, h1⟩⟩ := kind_regs h hr <;> unfold TakesOtherLookups <;> rw [k]
  · exact ipc_otherLookups hc h1 H
  · exact iff_false_intro ((none_iff _ _).1 (none_singles forLkDefault (fun n => .functions (some (w.num i (.own n))) none) printCommands (fun _ => rfl)) H)
  · simp only [h1, Option.some.injEq, exists_eq_left']; rfl

theorem takesUpdates_iff (h : create w x = some a) (hr : a.regs w i = some r) (H : Option Nat) :
    Latest forUpdate (acts r) H ↔ TakesUpdates w i x H := by
  obtain ⟨hc, ⟨k, h1⟩ | ⟨k, rfl⟩ | ⟨f, k, h1⟩⟩ := kind_regs h hr <;> unfold TakesUpdates <;> rw [k]
  · exact ipc_updates hc h1 H
  · exact iff_false_intro ((none_iff _ _).1 (none_singles forUpdate (fun n => .functions (some (w.num i (.own n))) none) printCommands (fun _ => rfl)) H)
  · simp only [h1, Option.some.injEq, exists_eq_left']; rfl

end

theorem loop_elements (w : World) : ∀ (xs : List Xml) (as : List Adapter), constructLoop w xs = some as →
    (xs.filter (fun k => k.name = "Adapter")).map (create w) = as.map some := by
  intro xs
  induction xs with
  | nil => intro as h; simp only [constructLoop, Option.some.injEq] at h; subst h; rfl
  | cons x xs ih =>
    intro as h
    unfold constructLoop at h
    split at h
    · rename_i hx
      simp only [Option.bind_eq_some_iff, Option.map_eq_some_iff] at h
      obtain ⟨a, h1, as', h2, rfl⟩ := h
      simp [hx, h1, ih _ h2]
    · rename_i hx
      rw [List.filter_cons_of_neg (by simpa using hx)]
      split at h
      · split at h
        · exact ih _ h
        · cases h
      · split at h
        · split at h
          · exact ih _ h
          · cases h
        · exact ih _ h

/-- `as` are the adapters of `es`. -/
theorem at_index {w : World} {es : List Xml} {as : List Adapter} (h : es.map (create w) = as.map some) {i : Nat} :
    (∀ x, es[i]? = some x → ∃ a, as[i]? = some a ∧ create w x = some a) ∧ (∀ a, as[i]? = some a → ∃ x, es[i]? = some x ∧ create w x = some a) := by
  have e : (es[i]?).map (create w) = (as[i]?).map some := by
    have := congrArg (fun l => l[i]?) h
    simpa using this
  constructor
  · intro x hx
    rw [hx] at e
    cases ha : as[i]? with
    | none => rw [ha] at e; cases e
    | some a => rw [ha] at e; exact ⟨a, rfl, by simpa using e⟩
  · intro a ha
    rw [ha] at e
    cases hx : es[i]? with
    | none => rw [hx] at e; cases e
    | some x => rw [hx] at e; exact ⟨x, rfl, by simpa using e⟩

theorem initFrom_each (w : World) : ∀ (as : List Adapter) (i : Nat) (rs : List Reg), initFrom w i as = some rs →
    ∀ (j : Nat) (a : Adapter), as[j]? = some a → ∃ r, a.regs w (i + j) = some r := by
  intro as
  induction as with
  | nil => intro i rs _ j a h; simp at h
  | cons b as ih =>
    intro i rs h j a ha
    simp only [initFrom, Option.bind_eq_some_iff, Option.map_eq_some_iff] at h
    obtain ⟨r, h1, rs', h2, rfl⟩ := h
    cases j with
    | zero => simp at ha; subst ha; exact ⟨r, h1⟩
    | succ j =>
      have := ih (i + 1) rs' h2 j a (by simpa using ha)
      rwa [Nat.add_right_comm] at this

theorem initFrom_none {X : Type} (f : Act → Option X) (w : World) : ∀ (as : List Adapter) (i : Nat) (rs : List Reg), initFrom w i as = some rs →
    (∀ (j : Nat) (a : Adapter) (r : List Reg), as[j]? = some a → a.regs w (i + j) = some r → ∀ b ∈ acts r, f b = none) → ∀ b ∈ acts rs, f b = none := by
  intro as
  induction as with
  | nil => intro i rs h _; cases h; simp [acts]
  | cons a as ih =>
    intro i rs h hn
    simp only [initFrom, Option.bind_eq_some_iff, Option.map_eq_some_iff] at h
    obtain ⟨r, h1, rs', h2, rfl⟩ := h
    rw [acts_append]
    intro b hb
    rcases List.mem_append.1 hb with hb | hb
    · exact hn 0 a r rfl h1 b hb
    · exact ih (i + 1) rs' h2 (fun j a' r' ha hr => hn (j + 1) a' r' (by simpa using ha) (by rwa [← Nat.add_assoc, Nat.add_right_comm])) b hb

theorem initFrom_last {X : Type} (f : Act → Option X) (H : X) (w : World) : ∀ (as : List Adapter) (i : Nat) (rs : List Reg), initFrom w i as = some rs →
    ∀ (j : Nat) (a : Adapter) (r : List Reg), as[j]? = some a → a.regs w (i + j) = some r → Latest f (acts r) H →
    (∀ (k : Nat) (a : Adapter) (r : List Reg), j < k → as[k]? = some a → a.regs w (i + k) = some r → ∀ b ∈ acts r, f b = none) → Latest f (acts rs) H := by
  intro as
  induction as with
  | nil => intro i rs _ j a r ha; simp at ha
  | cons b as ih =>
    intro i rs h j a r ha hr hl hn
    simp only [initFrom, Option.bind_eq_some_iff, Option.map_eq_some_iff] at h
    obtain ⟨r0, h1, rs', h2, rfl⟩ := h
    rw [acts_append, latest_append_iff]
    cases j with
    | zero =>
      simp at ha; subst ha
      rw [Nat.add_zero, h1] at hr; cases hr
      refine .inr ⟨initFrom_none f w as (i + 1) rs' h2 (fun j a' r' ha hr => hn (j + 1) a' r' (by omega) (by simpa using ha) (by rwa [← Nat.add_assoc, Nat.add_right_comm])), hl⟩
    | succ j =>
      refine .inl (ih (i + 1) rs' h2 j a r (by simpa using ha) (by rwa [Nat.add_right_comm]) hl ?_)
      intro k a' r' hk ha' hr'
      exact hn (k + 1) a' r' (by omega) (by simpa using ha') (by rwa [← Nat.add_assoc, Nat.add_right_comm])

theorem all_adapters {X : Type} (f : Act → Option X) (T : Nat → Xml → X → Prop) (w : World) (doc : Xml) (rs : List Reg) (hs : setup w doc = some rs)
    (ht : ∀ i x a r, x ∈ doc.kids → create w x = some a → a.regs w i = some r → ∀ H, Latest f (acts r) H ↔ T i x H) :
    (∀ H, LastOf T (elements doc) H → Latest f (acts rs) H) ∧ (NoneOf T (elements doc) → ∀ b ∈ acts rs, f b = none) := by
  simp only [setup, Option.bind_eq_some_iff] at hs
  obtain ⟨as, h1, h2⟩ := hs
  have h3 : (elements doc).map (create w) = as.map some := by
    unfold construct at h1
    split at h1
    · exact loop_elements w _ _ h1
    · cases h1
  have mem : ∀ i x, (elements doc)[i]? = some x → x ∈ doc.kids := fun i x h => (List.mem_filter.1 (List.mem_of_getElem? h)).1
  have one : ∀ j a r, as[j]? = some a → a.regs w (0 + j) = some r → (∀ x, (elements doc)[j]? = some x → ∀ K, ¬ T j x K) → ∀ b ∈ acts r, f b = none := by
    intro j a r ha hr hn
    obtain ⟨x, hx, hc⟩ := (at_index h3).2 a ha
    rw [Nat.zero_add] at hr
    exact (none_iff _ _).2 (fun K => by rw [ht j x a r (mem j x hx) hc hr]; exact hn x hx K)
  constructor
  · rintro H ⟨i, x, hx, hT, hl⟩
    obtain ⟨a, ha, hc⟩ := (at_index h3).1 x hx
    obtain ⟨r, hr⟩ := initFrom_each w as 0 rs h2 i a ha
    refine initFrom_last f H w as 0 rs h2 i a r ha hr ?_ ?_
    · rw [Nat.zero_add] at hr
      exact (ht i x a r (mem i x hx) hc hr H).2 hT
    · intro k a' r' hk ha' hr'
      exact one k a' r' ha' hr' (fun y hy K => hl k y hk hy K)
  · intro hn
    exact initFrom_none f w as 0 rs h2 (fun j a r ha hr => one j a r ha hr (fun x hx K => hn j x hx K))

/-! ### C150 -/

/-- **C150, who gets it**: with an accepted configuration whose lists of names are well formed, a command, a lookup, an update goes where the configuration says. -/
theorem c150_routes_partial (w : World) (doc : Xml) (rs : List Reg) (hs : setup w doc = some rs)
    (hw : ∀ x ∈ doc.kids, w.kind (x.attr "AdapterType") = some .ipc → WellListed x "CommandNames" ∧ WellListed x "LookupNames") :
    (∀ name H, Goes (fun i x => TakesCommand w i x name) (TakesOtherCommands w) .builtin (elements doc) H → CmdFor (acts rs) name H) ∧
    (∀ name H, Goes (fun i x => TakesLookup w i x name) (TakesOtherLookups w) .builtin (elements doc) H → LkFor (acts rs) name H) ∧
    (∀ u, LastOf (TakesUpdates w) (elements doc) u ∨ NoneOf (TakesUpdates w) (elements doc) ∧ u = none → UpdFor (acts rs) u) := by
  refine ⟨fun name H h => ?_, fun name H h => ?_, fun u h => ?_⟩
  · have A := all_adapters (forCommand name) (fun i x => TakesCommand w i x name) w doc rs hs
      (fun i x a r hx hc hr H => takesCommand_iff hc hr (fun k => (hw x hx k).1) name H)
    have B := all_adapters forCmdDefault (TakesOtherCommands w) w doc rs hs (fun i x a r _ hc hr H => takesOther_iff hc hr H)
    rcases h with h | ⟨h1, h | ⟨h2, rfl⟩⟩
    · exact .inl (A.1 H h)
    · exact .inr ⟨A.2 h1, .inl (B.1 H h)⟩
    · exact .inr ⟨A.2 h1, .inr ⟨B.2 h2, rfl⟩⟩
  · have A := all_adapters (forLookup name) (fun i x => TakesLookup w i x name) w doc rs hs
      (fun i x a r hx hc hr H => takesLookup_iff hc hr (fun k => (hw x hx k).2) name H)
    have B := all_adapters forLkDefault (TakesOtherLookups w) w doc rs hs (fun i x a r _ hc hr H => takesOtherLookups_iff hc hr H)
    rcases h with h | ⟨h1, h | ⟨h2, rfl⟩⟩
    · exact .inl (A.1 H h)
    · exact .inr ⟨A.2 h1, .inl (B.1 H h)⟩
    · exact .inr ⟨A.2 h1, .inr ⟨B.2 h2, rfl⟩⟩
  · have A := all_adapters forUpdate (TakesUpdates w) w doc rs hs (fun i x a r _ hc hr H => takesUpdates_iff hc hr H)
    rcases h with h | ⟨h, rfl⟩
    · exact .inl (A.1 u h)
    · exact .inr ⟨A.2 h, rfl⟩

/-- There is always a last, or none. -/
theorem last_or_none {X : Type} (T : Nat → Xml → X → Prop) (es : List Xml) : (∃ H, LastOf T es H) ∨ NoneOf T es := by
  have key : ∀ n, (∃ i x H, i < n ∧ es[i]? = some x ∧ T i x H ∧ ∀ j y, i < j → j < n → es[j]? = some y → ∀ K, ¬ T j y K) ∨
      ∀ i x, i < n → es[i]? = some x → ∀ K, ¬ T i x K := by
    intro n
    induction n with
    | zero => exact .inr (fun i x h => absurd h (Nat.not_lt_zero _))
    | succ n ih =>
      by_cases hn : ∃ x H, es[n]? = some x ∧ T n x H
      · obtain ⟨x, H, hx, hT⟩ := hn
        exact .inl ⟨n, x, H, Nat.lt_succ_self _, hx, hT, fun j y h1 h2 => absurd h2 (by omega)⟩
      · have hn' : ∀ x, es[n]? = some x → ∀ K, ¬ T n x K := fun x hx K hK => hn ⟨x, K, hx, hK⟩
        rcases ih with ⟨i, x, H, hi, hx, hT, hl⟩ | h
        · refine .inl ⟨i, x, H, by omega, hx, hT, fun j y h1 h2 hy K => ?_⟩
          by_cases e : j = n
          · subst e; exact hn' y hy K
          · exact hl j y h1 (by omega) hy K
        · refine .inr (fun i x hi hx K => ?_)
          by_cases e : i = n
          · subst e; exact hn' x hx K
          · exact h i x (by omega) hx K
  have lt : ∀ i x, es[i]? = some x → i < es.length := by
    intro i x h
    obtain ⟨h1, _⟩ := List.getElem?_eq_some_iff.1 h
    exact h1
  rcases key es.length with ⟨i, x, H, hi, hx, hT, hl⟩ | h
  · exact .inl ⟨H, i, x, hx, hT, fun j y h1 hy K => hl j y h1 (lt j y hy) hy K⟩
  · exact .inr (fun i x hx => h i x (lt i x hx) hx)

/-- The configuration always says where something goes. -/
theorem c150_goes {X : Type} (T D : Nat → Xml → X → Prop) (d : X) (es : List Xml) : ∃ H, Goes T D d es H := by
  rcases last_or_none T es with ⟨H, h⟩ | h
  · exact ⟨H, .inl h⟩
  · rcases last_or_none D es with ⟨H, h'⟩ | h'
    · exact ⟨H, .inr ⟨h, .inl h'⟩⟩
    · exact ⟨d, .inr ⟨h, .inr ⟨h', rfl⟩⟩⟩

/-- **C150, commands**: what happens when the plan gives a command: the adapter sends it, once; no other code is called. -/
theorem c150_command (w : World) (doc : Xml) (rs : List Reg) (hs : setup w doc = some rs) (code : Code)
    (hw : ∀ x ∈ doc.kids, w.kind (x.attr "AdapterType") = some .ipc → WellListed x "CommandNames" ∧ WellListed x "LookupNames")
    (c : Item) (H : CmdHandler) (hg : Goes (fun i x => TakesCommand w i x c.name) (TakesOtherCommands w) .builtin (elements doc) H) :
    callsOf (outcome code (acts rs) (.execute c)) = H.execCode.toList.map (fun k => (k, .execute c)) := by
  obtain ⟨n, h1, h2, h3⟩ := c96_reaches_latest code (acts rs) (.execute c)
  have := h2 _ ⟨H, (c150_routes_partial w doc rs hs hw).1 _ _ hg, rfl⟩
  rw [h3, this]

theorem regs_some (w : World) (i : Nat) {x : Xml} {a : Adapter} (h : create w x = some a) : (∃ r, a.regs w i = some r) ↔ GoodAdapter w x := by
  obtain ⟨h1, h2, h3, h4, h5⟩ := create_some h
  unfold Adapter.regs GoodAdapter
  rw [h4]
  simp only [h3, ne_eq, not_false_eq_true, true_and]
  cases hk : a.kind with
  | ipc =>
    simp only [ipcRegs, h1]
    rw [← (external_iff w.typed x).1]
    constructor
    · rintro ⟨r, h⟩
      obtain ⟨e, he, _⟩ := Option.map_eq_some_iff.1 h
      exact ⟨e, he⟩
    · rintro ⟨e, he⟩
      rw [he]; exact ⟨_, rfl⟩
  | utility => simp
  | other f => simp only [h1]

theorem create_iff (w : World) (x : Xml) (hx : x.name = "Adapter") : (∃ a, create w x = some a) ↔ x.attr "AdapterType" ≠ "" ∧ ∃ k, w.kind (x.attr "AdapterType") = some k := by
  constructor
  · rintro ⟨a, h⟩
    obtain ⟨h1, h2, h3, h4, h5⟩ := create_some h
    exact ⟨h3, _, h4⟩
  · rintro ⟨h1, k, h2⟩
    have hp : ∃ c, parseAdapter x = some c ∧ c.typeName = x.attr "AdapterType" := by
      unfold parseAdapter
      rw [if_neg (not_not_intro hx), if_neg h1]
      exact ⟨_, rfl, rfl⟩
    obtain ⟨c, hc, ht⟩ := hp
    exact ⟨⟨k, x, c⟩, by simp only [create, hc, Option.bind_some, ht, h2, Option.map_some]⟩

theorem initFrom_some (w : World) : ∀ (as : List Adapter) (i : Nat), (∀ a ∈ as, ∀ j, ∃ r, a.regs w j = some r) → ∃ rs, initFrom w i as = some rs := by
  intro as
  induction as with
  | nil => intro i _; exact ⟨[], rfl⟩
  | cons a as ih =>
    intro i h
    obtain ⟨r, hr⟩ := h a (by simp) i
    obtain ⟨rs, hrs⟩ := ih (i + 1) (fun b hb => h b (by simp [hb]))
    exact ⟨r ++ rs, by simp [initFrom, hr, hrs]⟩

theorem loop_some (w : World) : ∀ xs : List Xml, (∃ as, constructLoop w xs = some as) ↔ ∀ x ∈ xs,
    (x.name = "Adapter" → ∃ a, create w x = some a) ∧ (x.name = "InterfaceLibrary" → x.attr "Name" ≠ "" ∧ w.library x = true) ∧
    (x.name = "Listener" → w.listener x = true) := by
  intro xs
  induction xs with
  | nil => simp [constructLoop]
  | cons x xs ih =>
    rw [List.forall_mem_cons]
    unfold constructLoop
    by_cases h1 : x.name = "Adapter"
    · simp only [h1, if_true]
      cases hc : create w x with
      | none => simp
      | some a => simpa using ih
    · rw [if_neg h1]
      by_cases h2 : x.name = "InterfaceLibrary"
      · simp only [h2, if_true]
        by_cases h3 : x.attr "Name" = ""
        · simp [h3]
        · by_cases h4 : w.library x = true
          · simpa [h3, h4] using ih
          · simp [h4]
      · rw [if_neg h2]
        by_cases h3 : x.name = "Listener"
        · simp only [h3, if_true]
          by_cases h4 : w.listener x = true
          · simpa [h4] using ih
          · simp [h4]
        · simpa [h1, h2, h3] using ih

/-- **C150, accepted**: which configurations are accepted. -/
theorem c150_accepted (w : World) (doc : Xml) : (∃ rs, setup w doc = some rs) ↔ Good w doc := by
  unfold setup construct Good
  by_cases hd : doc.name = "Interfaces"
  · simp only [hd, if_true, true_and, Option.bind_eq_some_iff]
    constructor
    · rintro ⟨rs, as, h1, h2⟩ x hx
      have h4 := (loop_some w doc.kids).1 ⟨as, h1⟩ x hx
      refine ⟨fun hn => ?_, h4.2.1, h4.2.2⟩
      have hm : x ∈ doc.kids.filter (fun k => k.name = "Adapter") := List.mem_filter.2 ⟨hx, by simpa using hn⟩
      obtain ⟨j, hj, hxj⟩ := List.getElem_of_mem hm
      obtain ⟨a, ha, hc⟩ := (at_index (loop_elements w _ _ h1) (i := j)).1 x (by rw [List.getElem?_eq_some_iff]; exact ⟨hj, hxj⟩)
      obtain ⟨r, hr⟩ := initFrom_each w as 0 rs h2 j a ha
      exact (regs_some w (0 + j) hc).1 ⟨r, hr⟩
    · intro h
      obtain ⟨as, has⟩ := (loop_some w doc.kids).2 (fun x hx => ⟨fun hn => by
        have := (h x hx).1 hn
        refine (create_iff w x hn).2 ⟨this.1, ?_⟩
        have h2 := this.2
        cases hk : w.kind (x.attr "AdapterType") with
        | none => rw [hk] at h2; exact h2.elim
        | some k => exact ⟨k, rfl⟩, (h x hx).2.1, (h x hx).2.2⟩)
      obtain ⟨rs, hrs⟩ := initFrom_some w as 0 (by
        intro a ha j
        obtain ⟨k, hk, hak⟩ := List.getElem_of_mem ha
        obtain ⟨x, hx, hc⟩ := (at_index (loop_elements w _ _ has) (i := k)).2 a (by rw [List.getElem?_eq_some_iff]; exact ⟨hk, hak⟩)
        have := List.mem_filter.1 (List.mem_of_getElem? hx)
        exact (regs_some w j hc).2 ((h x this.1).1 (by simpa using this.2)))
      exact ⟨rs, as, has, hrs⟩
  · simp [hd]

/-! ### Examples -/

/-- An element without attributes and with a text, for examples (`Configuration.cc:80-87`). -/
def words (tag t : String) : Xml := .elem tag [] [.text t]
/-- The surroundings for examples (`AdapterFactory.cc:60-90`): the code of the `i`-th adapter has a number of its own for each role. -/
def world : World where
  kind := fun t => if t = "IpcAdapter" then some .ipc else if t = "Utility" then some .utility else if t = "Time" then some (.other fun _ => some [.lookup (.object 900) "time"]) else none
  library := fun _ => true
  listener := fun _ => true
  typed := fun _ _ => true
  num := fun i r => 10 * i + match r with | .own _ => 1 | .commands => 2 | .lookups => 3 | .updates => 4
/-- Two adapters for IPC, one for printing, one for the time. For examples (`AdapterConfiguration.cc:212-314`). -/
def sample : Xml := .elem "Interfaces" [] [
  .elem "Adapter" [("AdapterType", "Time")] [],
  .elem "Adapter" [("AdapterType", "IpcAdapter")] [words "CommandNames" "drill, print", words "LookupNames" "depth",
    .elem "ExternalLookups" [] [.elem "Lookup" [("name", "mode"), ("type", "String"), ("value", "idle")] []]],
  .elem "Other" [] [],
  .elem "Adapter" [("AdapterType", "Utility")] [],
  .elem "Adapter" [("AdapterType", "IpcAdapter")] [.elem "DefaultAdapter" [] []]]

/-- It is accepted; what is called, for each request. -/
theorem c150_example : (setup world sample).map (fun rs =>
    let o := fun r => callsOf (outcome (fun _ _ _ => .returns) (acts rs) r)
    [(o (.execute ⟨0, "drill"⟩)).map (·.1), (o (.execute ⟨0, "print"⟩)).map (·.1), (o (.execute ⟨0, "other"⟩)).map (·.1), (o (.execute ⟨0, "UpdateLookup"⟩)).map (·.1),
      (o (.lookup "time")).map (·.1), (o (.lookup "depth")).map (·.1), (o (.lookup "mode")).map (·.1), (o (.lookup "x")).map (·.1), (o (.update ⟨0, ""⟩)).map (·.1)]) =
    some [[12], [21], [32], [31], [900], [13], [13], [33], [34]] := by decide +kernel

/-- Its lists are well formed. -/
theorem c150_example_hypotheses : Lists (.elem "Adapter" [] [words "CommandNames" "drill, print"]) "CommandNames" "print" ∧
    WellListed (.elem "Adapter" [] [words "CommandNames" "drill, print"]) "CommandNames" := by
  have h : Listed (firstText (words "CommandNames" "drill, print").kids).toList ["drill".toList, "print".toList] :=
    .cons (b := []) (w := "drill".toList) (by intro c hc; cases hc) ⟨by decide, by decide⟩
      (.last (b := [' ']) (w := "print".toList) (t := []) (by intro c hc; simp at hc; subst hc; rfl) ⟨by decide, by decide⟩ (by intro c hc; cases hc))
  refine ⟨⟨words "CommandNames" "drill, print", by simp [Xml.kids], rfl, _, h, by simp⟩, ?_⟩
  intro k hk _
  simp only [Xml.kids, List.mem_singleton] at hk
  subst hk
  exact .inr ⟨_, h⟩

/-- **C150 fails** for an adapter that both lists a name and is the default: its list is not looked at, and the command goes to another adapter that lists the name, though that comes before. -/
theorem c150_default_refuted :
    let lists := fun more => Xml.elem "Adapter" [("AdapterType", "IpcAdapter")] (words "CommandNames" "drill" :: more)
    let called := fun more => (setup world (.elem "Interfaces" [] [lists [], lists more])).map fun rs =>
      (callsOf (outcome (fun _ _ _ => .returns) (acts rs) (.execute ⟨0, "drill"⟩))).map (·.1)
    called [] = some [12] ∧ called [.elem "DefaultCommandAdapter" [] []] = some [2] := by decide +kernel

/-- **C150 fails** for a blank in front of a comma: the name is registered with the blank, and the command is not sent; with the handler of nobody it is reported as successful. -/
theorem c150_blank_refuted :
    let doc := fun t => Xml.elem "Interfaces" [] [.elem "Adapter" [("AdapterType", "IpcAdapter")] [words "CommandNames" t]]
    let events := fun t => (setup world (doc t)).map fun rs => outcome (fun _ _ _ => .returns) (acts rs) (.execute ⟨0, "drill"⟩)
    events "drill, dig" = some [.call 2 (.execute ⟨0, "drill"⟩) .returns] ∧ events "drill , dig" = some [.ackSuccess ⟨0, "drill"⟩] := by decide +kernel

end Verif.Config
