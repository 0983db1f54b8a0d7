import Verif.Main.Model
/-
C139: the command line of `universalExec`. C140: what it does, and its exit code.
-/
set_option autoImplicit false
set_option linter.unusedSimpArgs false
namespace Verif.Main

/-! ## Specification -/

/-- The options a user can give. -/
inductive Opt where
  | config (f : String)
  | debug (f : String)
  | noDebug
  | lib (f : String)
  | path (d : String)
  | host (h : String)
  | plan (f : String)
  | res (f : String)
  | noRes
  | viewer
  | port (n : String)
  | block
deriving DecidableEq, Repr

/-- How they are written. -/
def Opt.words : Opt → List String
  | .config f => ["-c", f]
  | .debug f => ["-d", f]
  | .noDebug => ["+d"]
  | .lib f => ["-l", f]
  | .path d => ["-L", d]
  | .host h => ["-h", h]
  | .plan f => ["-p", f]
  | .res f => ["-r", f]
  | .noRes => ["+r"]
  | .viewer => ["-v"]
  | .port n => ["-n", n]
  | .block => ["-b"]

/-- A command line. -/
def render (os : List Opt) : List String := os.flatMap Opt.words

/-- The file of a `-c`. -/
def Opt.config? : Opt → Option String | .config f => some f | _ => none
/-- The file of a `-d`. -/
def Opt.debug? : Opt → Option String | .debug f => some f | _ => none
/-- The file of a `-l`. -/
def Opt.lib? : Opt → Option String | .lib f => some f | _ => none
/-- The directory of a `-L`. -/
def Opt.path? : Opt → Option String | .path f => some f | _ => none
/-- The host of a `-h`. -/
def Opt.host? : Opt → Option String | .host f => some f | _ => none
/-- The file of a `-p`. -/
def Opt.plan? : Opt → Option String | .plan f => some f | _ => none
/-- The file of a `-r`. -/
def Opt.res? : Opt → Option String | .res f => some f | _ => none
/-- The text of a `-n`. -/
def Opt.port? : Opt → Option String | .port f => some f | _ => none

/-- The options that may be given together: at most one `-d`, and not with `+d`; at most one `-r`, and not with `+r`; a host only after `-v`. -/
structure Allowed (os : List Opt) : Prop where
  debug : (os.filterMap Opt.debug?).length ≤ 1
  noDebug : .noDebug ∈ os → os.filterMap Opt.debug? = []
  res : (os.filterMap Opt.res?).length ≤ 1
  noRes : .noRes ∈ os → os.filterMap Opt.res? = []
  host : ∀ pre h post, os = pre ++ .host h :: post → .viewer ∈ pre

/-- What they mean: the last one counts; libraries and directories add up, in their order. -/
def meaning (num : String → Int) (os : List Opt) : Settings where
  plan := (os.filterMap Opt.plan?).getLast?.getD ""
  debugConfig := if .noDebug ∈ os then "" else (os.filterMap Opt.debug?).getLast?.getD "Debug.cfg"
  interfaceConfig := (os.filterMap Opt.config?).getLast?.getD "interface-config.xml"
  resourceFile := if .noRes ∈ os then "" else (os.filterMap Opt.res?).getLast?.getD "resource.data"
  libraries := os.filterMap Opt.lib?
  paths := os.filterMap Opt.path?
  host := (os.filterMap Opt.host?).getLast?.getD "localhost"
  port := ((os.filterMap Opt.port?).getLast?.map num).getD 49100
  block := decide (.block ∈ os)
  luv := decide (.viewer ∈ os)
  debugSupplied := !(os.filterMap Opt.debug?).isEmpty
  useDebug := decide (.noDebug ∉ os)
  resourceSupplied := !(os.filterMap Opt.res?).isEmpty
  useResource := decide (.noRes ∉ os)

/-! ## Proofs: the command line -/

variable {num : String → Int}

private theorem allowed_prefix {os ps : List Opt} (h : Allowed (os ++ ps)) : Allowed os := by
  refine ⟨?_, fun hm => ?_, ?_, fun hm => ?_, fun pre x post he => h.host pre x (post ++ ps) (by rw [he]; simp)⟩
  · have := h.debug; simp at this; omega
  · have := h.noDebug (by simp [hm]); simp at this; exact List.filterMap_eq_nil_iff.2 (fun a ha => this.1 a ha)
  · have := h.res; simp at this; omega
  · have := h.noRes (by simp [hm]); simp at this; exact List.filterMap_eq_nil_iff.2 (fun a ha => this.1 a ha)

/-- One more option. -/
private theorem allowed_snoc (os : List Opt) (o : Opt) (h : Allowed os) : Allowed (os ++ [o]) ↔
    (match o with
      | .debug _ => os.filterMap Opt.debug? = [] ∧ .noDebug ∉ os
      | .noDebug => os.filterMap Opt.debug? = []
      | .res _ => os.filterMap Opt.res? = [] ∧ .noRes ∉ os
      | .noRes => os.filterMap Opt.res? = []
      | .host _ => .viewer ∈ os
      | _ => True) := by
  have hh : (∀ pre x post, os ++ [o] = pre ++ .host x :: post → .viewer ∈ pre) ↔ (∀ x, o = .host x → .viewer ∈ os) := by
    constructor
    · intro H x hx; exact H os x [] (by rw [hx])
    · intro H pre x post he
      rcases List.eq_nil_or_concat post with rfl | ⟨l, b, rfl⟩
      · obtain ⟨e1, e2⟩ := List.append_inj' he rfl
        simp at e2; subst e1; exact H x e2
      · rw [List.concat_eq_append, ← List.cons_append, ← List.append_assoc] at he
        obtain ⟨e1, _⟩ := List.append_inj' he rfl
        exact h.host pre x l e1
  constructor
  · rintro ⟨h1, h2, h3, h4, h5⟩
    rw [hh] at h5
    cases o <;> simp_all [-List.filterMap_eq_nil_iff, List.filterMap_cons, Opt.debug?, Opt.res?]
  · intro H
    have a1 := h.debug; have a2 := h.noDebug; have a3 := h.res; have a4 := h.noRes
    refine ⟨?_, ?_, ?_, ?_, hh.2 ?_⟩ <;> cases o <;> simp_all [-List.filterMap_eq_nil_iff, List.filterMap_cons, Opt.debug?, Opt.res?]

private theorem getLast?_snoc {α : Type} (l : List α) (a : α) : (l ++ [a]).getLast? = some a := by simp

/-- A further option is read. -/
private theorem step (os : List Opt) (o : Opt) (rest : List String) (h : Allowed (os ++ [o])) :
    options num (meaning num os) (o.words ++ rest) = options num (meaning num (os ++ [o])) rest := by
  have ha := allowed_prefix h
  rw [allowed_snoc os o ha] at h
  conv => lhs; unfold options
  cases o <;> simp only [Opt.words, List.cons_append, List.nil_append, reduceIte, String.reduceEq] <;>
    simp_all [-List.filterMap_eq_nil_iff, List.filterMap_cons, meaning, Opt.config?, Opt.debug?, Opt.lib?, Opt.path?, Opt.host?, Opt.plan?, Opt.res?, Opt.port?]

/-- An option that may not follow. -/
private theorem step_bad (os : List Opt) (o : Opt) (rest : List String) (h : Allowed os) (hn : ¬ Allowed (os ++ [o])) :
    options num (meaning num os) (o.words ++ rest) = match o with | .host _ => .exit 0 | _ => .exit 2 := by
  rw [allowed_snoc os o h] at hn
  unfold options
  cases o <;> simp only [Opt.words, List.cons_append, List.nil_append, reduceIte, String.reduceEq] <;>
    simp_all [-List.filterMap_eq_nil_iff, List.filterMap_cons, meaning, Opt.config?, Opt.debug?, Opt.lib?, Opt.path?, Opt.host?, Opt.plan?, Opt.res?, Opt.port?]
  · intro a b; exact absurd (hn b) a
  · intro a b; exact absurd (hn b) a

/-- What is left is not an option with its argument. -/
private theorem stuck (s : Settings) (a : String) (as : List String) (h : ¬ ∃ o rest, a :: as = Opt.words o ++ rest) :
    options num s (a :: as) = if a = "-h" ∧ s.luv = false then .exit 0 else .exit 2 := by
  have two : ∀ (f : String → Opt) (w : String), (∀ x, (f x).words = [w, x]) → a = w → as = [] := by
    intro f w hf hw
    cases as with
    | nil => rfl
    | cons x as => exact absurd ⟨f x, as, by rw [hf, hw]; rfl⟩ h
  have one : ∀ (o : Opt) (w : String), o.words = [w] → a ≠ w := by
    intro o w ho hw; exact h ⟨o, as, by rw [ho, hw]; rfl⟩
  have e1 := one .noDebug _ rfl; have e2 := one .noRes _ rfl; have e3 := one .viewer _ rfl; have e4 := one .block _ rfl
  by_cases c1 : a = "-c"
  · have := two .config _ (fun _ => rfl) c1; subst this; subst c1; simp [options]
  by_cases c2 : a = "-d"
  · have := two .debug _ (fun _ => rfl) c2; subst this; subst c2; simp [options]
  by_cases c3 : a = "-l"
  · have := two .lib _ (fun _ => rfl) c3; subst this; subst c3; simp [options]
  by_cases c4 : a = "-L"
  · have := two .path _ (fun _ => rfl) c4; subst this; subst c4; simp [options]
  by_cases c5 : a = "-h"
  · have := two .host _ (fun _ => rfl) c5; subst this; subst c5; cases h : s.luv <;> simp [options, h]
  by_cases c6 : a = "-p"
  · have := two .plan _ (fun _ => rfl) c6; subst this; subst c6; simp [options]
  by_cases c7 : a = "-r"
  · have := two .res _ (fun _ => rfl) c7; subst this; subst c7; simp [options]
  by_cases c8 : a = "-n"
  · have := two .port _ (fun _ => rfl) c8; subst this; subst c8; simp [options]
  unfold options
  simp only [c1, c2, c3, c4, c5, c6, c7, c8, e1, e2, e3, e4, if_false, false_and]

private theorem render_snoc (os : List Opt) (o : Opt) : render (os ++ [o]) = render os ++ o.words := by simp [render]

private theorem words_inj {o o' : Opt} {r r' : List String} (h : o.words ++ r = o'.words ++ r') : o = o' ∧ r = r' := by
  cases o <;> cases o' <;> simp_all [Opt.words]

private theorem words_help {o : Opt} {r r' : List String} (h : o.words ++ r = "-h" :: r') : ∃ x, o = .host x := by
  cases o <;> simp_all [Opt.words]

private theorem words_pos (o : Opt) : 0 < o.words.length := by cases o <;> simp [Opt.words]

/-- From any point on: the outcome, and what was read. -/
private theorem outcome : ∀ (n : Nat) (os : List Opt) (args : List String), args.length ≤ n → Allowed os →
    (∃ ps, args = render ps ∧ Allowed (os ++ ps) ∧ options num (meaning num os) args = .go (meaning num (os ++ ps))) ∨
    (∃ ps rest, args = render ps ++ "-h" :: rest ∧ Allowed (os ++ ps) ∧ .viewer ∉ os ++ ps ∧ options num (meaning num os) args = .exit 0) ∨
    ((∀ ps, args = render ps → ¬ Allowed (os ++ ps)) ∧ (∀ ps rest, args = render ps ++ "-h" :: rest → Allowed (os ++ ps) → .viewer ∈ os ++ ps) ∧ options num (meaning num os) args = .exit 2) := by
  intro n
  induction n with
  | zero =>
    intro os args hl ha
    have : args = [] := List.length_eq_zero_iff.1 (by omega)
    subst this
    exact .inl ⟨[], rfl, by simpa using ha, by simp [options]⟩
  | succ n ih =>
    intro os args hl ha
    cases args with
    | nil => exact .inl ⟨[], rfl, by simpa using ha, by simp [options]⟩
    | cons a as =>
      by_cases hw : ∃ o rest, a :: as = Opt.words o ++ rest
      · obtain ⟨o, rest, he⟩ := hw
        rw [he] at hl ⊢
        have hlen : rest.length ≤ n := by have := words_pos o; simp at hl; omega
        by_cases hal : Allowed (os ++ [o])
        · rw [step os o rest hal]
          have assoc : ∀ ps, os ++ o :: ps = os ++ [o] ++ ps := fun ps => by simp
          rcases ih (os ++ [o]) rest hlen hal with ⟨ps, h1, h2, h3⟩ | ⟨ps, r, h1, h2, h3, h4⟩ | ⟨h1, h2, h3⟩
          · exact .inl ⟨o :: ps, by rw [h1]; rfl, by rw [assoc]; exact h2, by rw [h3, ← assoc]⟩
          · exact .inr (.inl ⟨o :: ps, r, by rw [h1]; simp [render], by rw [assoc]; exact h2, by rw [assoc]; exact h3, h4⟩)
          · refine .inr (.inr ⟨fun ps hp => ?_, fun ps r hp hal' => ?_, h3⟩)
            · cases ps with
              | nil =>
                have h5 := congrArg List.length hp
                have h6 := words_pos o
                simp only [render, List.flatMap_nil, List.length_append, List.length_nil] at h5; omega
              | cons p ps =>
                obtain ⟨rfl, hr⟩ := words_inj (r' := render ps) hp
                rw [assoc]; exact h1 ps hr
            · cases ps with
              | nil =>
                obtain ⟨x, rfl⟩ := words_help (r' := r) hp
                rw [List.append_nil]
                exact (allowed_snoc os (.host x) ha).1 hal
              | cons p ps =>
                have hp' : o.words ++ rest = p.words ++ (render ps ++ "-h" :: r) := by rw [hp]; simp [render]
                obtain ⟨rfl, hr⟩ := words_inj hp'
                rw [assoc] at hal' ⊢
                exact h2 ps r hr hal'
        · rw [step_bad os o rest ha hal]
          have third : ∀ ps, o.words ++ rest = render ps → ¬ Allowed (os ++ ps) := by
            intro ps hp
            cases ps with
            | nil =>
              have h5 := congrArg List.length hp
              have h6 := words_pos o
              simp only [render, List.flatMap_nil, List.length_append, List.length_nil] at h5; omega
            | cons p ps =>
              obtain ⟨rfl, hr⟩ := words_inj (r' := render ps) hp
              intro h'
              rw [show os ++ o :: ps = os ++ [o] ++ ps by simp] at h'
              exact hal (allowed_prefix h')
          by_cases hh : ∃ x, o = .host x
          · obtain ⟨x, rfl⟩ := hh
            refine .inr (.inl ⟨[], x :: rest, rfl, by simpa using ha, ?_, rfl⟩)
            rw [List.append_nil]
            exact fun hv => hal ((allowed_snoc os (.host x) ha).2 hv)
          · refine .inr (.inr ⟨third, fun ps r hp hal' => ?_, ?_⟩)
            · cases ps with
              | nil => exact absurd (words_help (r' := r) hp) hh
              | cons p ps =>
                have hp' : o.words ++ rest = p.words ++ (render ps ++ "-h" :: r) := by rw [hp]; simp [render]
                obtain ⟨rfl, hr⟩ := words_inj hp'
                rw [show os ++ o :: ps = os ++ [o] ++ ps by simp] at hal'
                exact absurd (allowed_prefix hal') hal
            · cases o <;> first | rfl | exact absurd ⟨_, rfl⟩ hh
      · rw [stuck _ _ _ hw]
        split
        · next hc =>
          obtain ⟨rfl, hc⟩ := hc
          exact .inr (.inl ⟨[], as, rfl, by simpa using ha, by simpa [meaning] using hc, rfl⟩)
        · next hc =>
          refine .inr (.inr ⟨fun ps hp => ?_, fun ps r hp hal' => ?_, rfl⟩)
          · cases ps with
            | nil => simp [render] at hp
            | cons p ps => exact absurd ⟨p, render ps, hp⟩ hw
          · cases ps with
            | nil =>
              simp only [render, List.flatMap_nil, List.nil_append, List.cons.injEq] at hp
              rw [List.append_nil]
              have : (meaning num os).luv = true := by
                cases hl' : (meaning num os).luv with
                | true => rfl
                | false => exact absurd ⟨hp.1, hl'⟩ hc
              simpa [meaning] using this
            | cons p ps => exact absurd ⟨p, render ps ++ "-h" :: r, by rw [hp]; simp [render]⟩ hw

private theorem render_inj : ∀ {os ps : List Opt}, render os = render ps → os = ps
  | [], [], _ => rfl
  | [], p :: ps, h => by have h6 := words_pos p; have h5 := congrArg List.length h; simp only [render, List.flatMap_nil, List.flatMap_cons, List.length_append, List.length_nil] at h5; omega
  | o :: os, [], h => by have h6 := words_pos o; have h5 := congrArg List.length h; simp only [render, List.flatMap_nil, List.flatMap_cons, List.length_append, List.length_nil] at h5; omega
  | o :: os, p :: ps, h => by
    obtain ⟨rfl, h'⟩ := words_inj (r := render os) (r' := render ps) h
    rw [render_inj h']

/-- If a command line of options has `-h` where an option could start, it is a host. -/
private theorem help_inside (os ps : List Opt) (r : List String) (ha : Allowed os) (h : render os = render ps ++ "-h" :: r) : .viewer ∈ ps := by
  have : ∃ x post, os = ps ++ .host x :: post := by
    clear ha
    induction ps generalizing os with
    | nil =>
      cases os with
      | nil => simp [render] at h
      | cons o os =>
        obtain ⟨x, rfl⟩ := words_help (r := render os) (r' := r) h
        exact ⟨x, os, rfl⟩
    | cons p ps ih =>
      cases os with
      | nil => have := words_pos p; have := congrArg List.length h; simp [render] at this
      | cons o os =>
        have h' : o.words ++ render os = p.words ++ (render ps ++ "-h" :: r) := by
          have : render (o :: os) = o.words ++ render os := rfl
          rw [← this, h]; simp [render]
        obtain ⟨rfl, hr⟩ := words_inj h'
        obtain ⟨x, post, e⟩ := ih os hr
        exact ⟨x, post, by rw [e]; rfl⟩
  obtain ⟨x, post, e⟩ := this
  exact ha.host ps x post e

private theorem allowed_nil : Allowed [] := ⟨by simp, by simp, by simp, by simp, fun pre h post he => by simp at he⟩

private theorem meaning_nil : meaning num [] = {} := by simp [meaning]

/-- **C139, what goes on.** The program goes on with these settings if and only if the command line consists of options, at least one, that may be given together, and the settings are what they mean. -/
theorem c139_goes_on (args : List String) (s : Settings) :
    parse num args = .go s ↔ ∃ os, os ≠ [] ∧ args = render os ∧ Allowed os ∧ s = meaning num os := by
  unfold parse
  by_cases h0 : args = []
  · rw [if_pos h0]
    subst h0
    constructor
    · intro h; cases h
    · rintro ⟨os, hne, he, _⟩; exact absurd (render_inj (os := []) he).symm hne
  · rw [if_neg h0, ← meaning_nil (num := num)]
    have hne : ∀ os, args = render os → os ≠ [] := by rintro os he rfl; exact h0 he
    rcases outcome (num := num) args.length [] args (Nat.le_refl _) allowed_nil with ⟨ps, h1, h2, h3⟩ | ⟨ps, r, h1, h2, h3, h4⟩ | ⟨h1, h2, h3⟩
    · rw [h3]
      constructor
      · intro h; cases h; exact ⟨ps, hne ps h1, h1, h2, rfl⟩
      · rintro ⟨os, _, he, _, rfl⟩
        rw [h1] at he; rw [render_inj he]; rfl
    · rw [h4]
      constructor
      · intro h; cases h
      · rintro ⟨os, _, he, ha, rfl⟩
        exfalso
        rw [he] at h1
        exact h3 (help_inside os ps r ha h1)
    · rw [h3]
      constructor
      · intro h; cases h
      · rintro ⟨os, _, he, ha, rfl⟩
        exact absurd ha (h1 os he)

/-- **C139, help.** The program ends with code 0 while reading the command line if and only if after options that may be given together, without `-v`, there is `-h` (whatever follows). -/
theorem c139_help (args : List String) :
    parse num args = .exit 0 ↔ ∃ os rest, args = render os ++ "-h" :: rest ∧ Allowed os ∧ .viewer ∉ os := by
  unfold parse
  by_cases h0 : args = []
  · rw [if_pos h0]
    subst h0
    constructor
    · intro h; cases h
    · rintro ⟨os, r, he, _⟩; simp at he
  · rw [if_neg h0, ← meaning_nil (num := num)]
    rcases outcome (num := num) args.length [] args (Nat.le_refl _) allowed_nil with ⟨ps, h1, h2, h3⟩ | ⟨ps, r, h1, h2, h3, h4⟩ | ⟨h1, h2, h3⟩
    · rw [h3]
      constructor
      · intro h; cases h
      · rintro ⟨os, r, he, ha, hv⟩
        exact absurd (help_inside ps os r h2 (by rw [← h1, he])) hv
    · rw [h4]
      exact ⟨fun _ => ⟨ps, r, h1, h2, h3⟩, fun _ => rfl⟩
    · rw [h3]
      constructor
      · intro h; cases h
      · rintro ⟨os, r, he, ha, hv⟩
        exact absurd (h2 os r he ha) hv

/-- **C139, rejected.** In all other cases the program ends with code 2. -/
theorem c139_rejected (args : List String) (h1 : ¬ ∃ os, os ≠ [] ∧ args = render os ∧ Allowed os) (h2 : ¬ ∃ os rest, args = render os ++ "-h" :: rest ∧ Allowed os ∧ .viewer ∉ os) :
    parse num args = .exit 2 := by
  rw [← c139_help (num := num)] at h2
  have h3 : ∀ s, parse num args ≠ .go s := fun s h => by
    obtain ⟨os, a, b, c, _⟩ := (c139_goes_on args s).1 h
    exact h1 ⟨os, a, b, c⟩
  revert h2 h3
  unfold parse
  by_cases h0 : args = []
  · rw [if_pos h0]; intros; rfl
  · rw [if_neg h0, ← meaning_nil (num := num)]
    rcases outcome (num := num) args.length [] args (Nat.le_refl _) allowed_nil with ⟨ps, _, _, h⟩ | ⟨ps, r, _, _, _, h⟩ | ⟨_, _, h⟩ <;> rw [h]
    · intro _ h3; exact absurd rfl (h3 _)
    · intro h2; exact absurd rfl h2
    · intros; rfl

/-- **C139, refuted: options may come in any order.** The same options in another order: with the host before `-v` the program prints its usage, and ends with code 0 without running the plan. -/
theorem c139_order_refuted (p h : String) :
    parse num (render [.plan p, .viewer, .host h]) = .go (meaning num [.plan p, .viewer, .host h]) ∧
    parse num (render [.plan p, .host h, .viewer]) = .exit 0 := by
  constructor
  · rw [c139_goes_on]
    refine ⟨_, by simp, rfl, ?_, rfl⟩
    have a1 := (allowed_snoc [] (.plan p) allowed_nil).2 trivial
    have a2 := (allowed_snoc _ .viewer a1).2 trivial
    exact (allowed_snoc _ (.host h) a2).2 (by simp)
  · rw [c139_help]
    exact ⟨[.plan p], [h, "-v"], rfl, (allowed_snoc [] (.plan p) allowed_nil).2 trivial, by simp⟩

/-- A command line that is accepted: a plan, two libraries, no debug messages, a viewer on another host. -/
example : parse num ["-p", "a.plx", "-l", "b.plx", "+d", "-l", "c.plx", "-v", "-h", "x"] =
    .go { plan := "a.plx", libraries := ["b.plx", "c.plx"], debugConfig := "", useDebug := false, luv := true, host := "x" } := by
  rw [c139_goes_on]
  refine ⟨[.plan "a.plx", .lib "b.plx", .noDebug, .lib "c.plx", .viewer, .host "x"], by simp, rfl, ?_, by simp [meaning, List.filterMap_cons, Opt.plan?, Opt.debug?, Opt.config?, Opt.lib?, Opt.path?, Opt.host?, Opt.res?, Opt.port?]⟩
  have a1 := (allowed_snoc [] (.plan "a.plx") allowed_nil).2 trivial
  have a2 := (allowed_snoc _ (.lib "b.plx") a1).2 trivial
  have a3 := (allowed_snoc _ .noDebug a2).2 (by simp [Opt.debug?])
  have a4 := (allowed_snoc _ (.lib "c.plx") a3).2 trivial
  have a5 := (allowed_snoc _ .viewer a4).2 trivial
  exact (allowed_snoc _ (.host "x") a5).2 (by simp)

/-- Command lines that are not: no argument for `-p`; `-d` with `+d`; a word that is no option. -/
example : parse num ["-p"] = .exit 2 ∧ parse num ["-d", "f", "+d"] = .exit 2 ∧ parse num ["a.plx"] = .exit 2 := by simp [parse, options]

/-! ## Proofs: what the program does -/

/-- Everything that can be done, in order, with a configuration and a plan that can be loaded. -/
def script (w : World) (s : Settings) (cfg : List Item) : List Event :=
  (if s.useDebug && w.debugFile s.debugConfig then [.readDebug s.debugConfig] else []) ++
  (if s.interfaceConfig = "" then [] else [.readConfig s.interfaceConfig]) ++
  (if s.luv then [.attachViewer s.host s.port s.block] else []) ++
  (if s.useResource then [.readResources s.resourceFile] else []) ++
  [.initApp cfg] ++
  (if s.paths = [] then [] else [.addPath s.paths]) ++
  s.libraries.map .loadLibrary ++
  [.startInterfaces, .run] ++
  (if s.plan = "" then [.waitForShutdown] else [.loadPlan s.plan, .addPlan s.plan, .notifyAndWait, .waitForPlanFinished, .stop])

/-- Everything goes well. -/
structure AllWell (w : World) (s : Settings) (cfg : List Item) : Prop where
  config : configOf w s = some cfg
  init : w.init cfg = true
  libs : ∀ f ∈ s.libraries, w.loadLibrary f = true
  start : w.startInterfaces = true
  run : w.run = true
  plan : s.plan ≠ "" → w.planOk s.plan = true ∧ w.addPlan s.plan = true

private theorem loadAll_eq (w : World) : ∀ fs : List String, (loadAll w fs).2 = true ↔ ∀ f ∈ fs, w.loadLibrary f = true
  | [] => by simp [loadAll]
  | f :: fs => by
    unfold loadAll
    cases h : w.loadLibrary f
    · simp [h]
    · simp [h, loadAll_eq w fs]

private theorem loadAll_events (w : World) : ∀ fs : List String, (loadAll w fs).2 = true → (loadAll w fs).1 = fs.map .loadLibrary
  | [] => by simp [loadAll]
  | f :: fs => by
    unfold loadAll
    cases h : w.loadLibrary f
    · simp
    · simpa using fun h' => loadAll_events w fs h'

private theorem loadAll_prefix (w : World) : ∀ fs : List String, (loadAll w fs).1 <+: fs.map .loadLibrary
  | [] => by simp [loadAll]
  | f :: fs => by
    unfold loadAll
    cases h : w.loadLibrary f
    · simp
    · simpa using loadAll_prefix w fs

/-- **C140, the exit code.** After the options the program ends with code 0 if and only if everything goes well, and otherwise with code 1. -/
theorem c140_code (w : World) (s : Settings) : ((body w s).2 = 0 ↔ ∃ cfg, AllWell w s cfg) ∧ ((body w s).2 = 0 ∨ (body w s).2 = 1) := by
  unfold body
  cases hc : configOf w s with
  | none =>
    refine ⟨⟨fun h => by simp at h, fun ⟨cfg, h⟩ => ?_⟩, .inr rfl⟩
    have := h.config; rw [hc] at this; cases this
  | some cfg =>
    have hcfg : ∀ c, AllWell w s c → c = cfg := fun c h => by have := h.config; rw [hc] at this; cases this; rfl
    simp only
    cases hi : w.init cfg with
    | false => exact ⟨⟨fun h => by simp at h, fun ⟨c, h⟩ => by cases hcfg c h; have := h.init; rw [hi] at this; cases this⟩, .inr rfl⟩
    | true =>
      cases hl : (loadAll w s.libraries).2 with
      | false => exact ⟨⟨fun h => by simp at h, fun ⟨c, h⟩ => by have := (loadAll_eq w _).2 h.libs; rw [hl] at this; cases this⟩, .inr rfl⟩
      | true =>
        cases hs : w.startInterfaces with
        | false => exact ⟨⟨fun h => by simp at h, fun ⟨c, h⟩ => by have := h.start; rw [hs] at this; cases this⟩, .inr rfl⟩
        | true =>
          cases hr : w.run with
          | false => exact ⟨⟨fun h => by simp at h, fun ⟨c, h⟩ => by have := h.run; rw [hr] at this; cases this⟩, .inr rfl⟩
          | true =>
            have base : (s.plan ≠ "" → w.planOk s.plan = true ∧ w.addPlan s.plan = true) ↔ ∃ c, AllWell w s c :=
              ⟨fun h => ⟨cfg, hc, hi, (loadAll_eq w _).1 hl, hs, hr, h⟩, fun ⟨c, h⟩ => h.plan⟩
            rw [← base]
            simp only [Bool.not_true, Bool.false_eq_true, if_false, planPart]
            by_cases hp : s.plan = ""
            · simp [hp]
            · cases h1 : w.planOk s.plan <;> cases h2 : w.addPlan s.plan <;> simp [hp]

/-- **C140, what is done.** If everything goes well exactly these things are done, in this order. -/
theorem c140_script (w : World) (s : Settings) (cfg : List Item) (h : AllWell w s cfg) : (body w s).1 = script w s cfg := by
  have hl := (loadAll_eq w _).2 h.libs
  have hp := h.plan
  unfold body
  simp only [h.config, h.init, hl, h.start, h.run, Bool.not_true, Bool.false_eq_true, if_false, loadAll_events w _ hl, planPart, script]
  by_cases hp' : s.plan = ""
  · simp [hp']
  · simp [hp', hp hp']

/-- **C140, nothing after a failure.** Whatever goes wrong, what is done is the first part of what was to be done, followed at most by stopping the application. -/
theorem c140_prefix (w : World) (s : Settings) (cfg : List Item) (hc : configOf w s = some cfg) :
    ∃ tail, (tail = [] ∨ tail = [.stop]) ∧ ∃ l, l <+: script w s cfg ∧ (body w s).1 = l ++ tail := by
  unfold body
  simp only [hc]
  have hpre := loadAll_prefix w s.libraries
  cases hi : w.init cfg with
  | false => refine ⟨[], .inl rfl, _, ?_, (List.append_nil _).symm⟩; simp [script]
  | true =>
    cases hl : (loadAll w s.libraries).2 with
    | false =>
      refine ⟨[], .inl rfl, _, ?_, (List.append_nil _).symm⟩
      obtain ⟨t, ht⟩ := hpre
      simp [script, ← ht]
    | true =>
      have he := loadAll_events w _ hl
      cases hs : w.startInterfaces with
      | false => refine ⟨[], .inl rfl, _, ?_, (List.append_nil _).symm⟩; simp [script, he]
      | true =>
        cases hr : w.run with
        | false => refine ⟨[], .inl rfl, _, ?_, (List.append_nil _).symm⟩; simp [script, he]
        | true =>
          simp only [Bool.not_true, Bool.false_eq_true, if_false, planPart]
          by_cases hp : s.plan = ""
          · refine ⟨[], .inl rfl, _, ?_, (List.append_nil _).symm⟩; simp [script, he, hp]
          · cases h1 : w.planOk s.plan with
            | false =>
              refine ⟨[.stop], .inr rfl, _, ?_, by simp only [hp, if_false, Bool.not_false, if_true]; rw [List.append_cons _ (Event.loadPlan _) [_]]⟩
              simp [script, he, hp]
            | true =>
              cases h2 : w.addPlan s.plan with
              | false =>
                refine ⟨[.stop], .inr rfl, _, ?_, by simp only [hp, if_false, Bool.not_true, Bool.not_false, if_true, Bool.false_eq_true]; rw [List.append_cons _ (Event.loadPlan _) _, List.append_cons _ (Event.addPlan _) _]⟩
                simp [script, he, hp]
              | true => refine ⟨[], .inl rfl, _, ?_, (List.append_nil _).symm⟩; simp [script, he, hp]

/-- **C140, stopped.** If the application was started running and there is a plan, the application is stopped at the end, whether or not the plan could be loaded. -/
theorem c140_stopped (w : World) (s : Settings) (hp : s.plan ≠ "") (h : .run ∈ (body w s).1) (hr : w.run = true) : (body w s).1.getLast? = some .stop := by
  have hnl : Event.run ∉ (loadAll w s.libraries).1 := fun hm => by
    have := (loadAll_prefix w s.libraries).subset hm
    simp at this
  unfold body at h ⊢
  cases hc : configOf w s with
  | none => rw [hc] at h; simp only [List.mem_append] at h; rcases h with h | h <;> split at h <;> simp at h
  | some cfg =>
    rw [hc] at h
    simp only at h ⊢
    have e1 : Event.run ∉ (if s.useDebug && w.debugFile s.debugConfig then [Event.readDebug s.debugConfig] else []) := by split <;> simp
    have e2 : Event.run ∉ (if s.interfaceConfig = "" then [] else [Event.readConfig s.interfaceConfig]) := by split <;> simp
    have e3 : Event.run ∉ (if s.luv then [Event.attachViewer s.host s.port s.block] else []) := by split <;> simp
    have e4 : Event.run ∉ (if s.useResource then [Event.readResources s.resourceFile] else []) := by split <;> simp
    have e5 : Event.run ∉ (if s.paths = [] then [] else [Event.addPath s.paths]) := by split <;> simp
    cases hi : w.init cfg with
    | false => simp [hi, e1, e2, e3, e4] at h
    | true =>
      cases hl : (loadAll w s.libraries).2 with
      | false => simp [hi, hl, e1, e2, e3, e4, e5, hnl] at h
      | true =>
        cases hs : w.startInterfaces with
        | false => simp [hi, hl, hs, e1, e2, e3, e4, e5, hnl] at h
        | true =>
          simp only [hr, Bool.not_true, Bool.false_eq_true, if_false, planPart, hp]
          rw [List.getLast?_append]
          cases w.planOk s.plan <;> cases w.addPlan s.plan <;> rfl

/-- **C140, refuted: what was started is stopped.** If the executive cannot be started running the interfaces have been started, but are not stopped. -/
theorem c140_stop_refuted (w : World) (s : Settings) (cfg : List Item) (h1 : configOf w s = some cfg) (h2 : w.init cfg = true) (h3 : ∀ f ∈ s.libraries, w.loadLibrary f = true)
    (h4 : w.startInterfaces = true) (h5 : w.run = false) : .startInterfaces ∈ (body w s).1 ∧ .stop ∉ (body w s).1 := by
  have hl := (loadAll_eq w _).2 h3
  unfold body
  simp only [h1, h2, hl, h4, h5, Bool.not_true, Bool.not_false, Bool.false_eq_true, if_false, if_true, loadAll_events w _ hl]
  constructor
  · simp
  · simp only [List.mem_append]
    rintro ((((((((h | h) | h) | h) | h) | h) | h) | h) | h) <;> first | (split at h <;> simp at h; done) | simp at h

/-- **C140, refuted: going on without interface configuration.** If the configuration file is not well-formed but part of it was read, the program says it goes on without, but uses that part. -/
theorem c140_config_refuted (w : World) (s : Settings) (cfg : List Item) (hf : s.interfaceConfig ≠ "") (hd : w.config s.interfaceConfig = ⟨false, false, some cfg⟩) (hv : s.luv = false) :
    .initApp cfg ∈ (body w s).1 := by
  have hc : configOf w s = some cfg := by simp [configOf, hf, hd, hv]
  unfold body
  simp only [hc]
  (repeat' split) <;> simp

/-- **C140, the configuration.** With a well-formed file having an `Interfaces` element, its contents are used; without a file, or with an empty one, only the adapter for time. -/
theorem c140_config (w : World) (s : Settings) (hv : s.luv = false) :
    (∀ cfg, s.interfaceConfig ≠ "" → w.config s.interfaceConfig = ⟨true, false, some cfg⟩ → configOf w s = some cfg) ∧
    (s.interfaceConfig = "" ∨ (w.config s.interfaceConfig).empty = true → configOf w s = some [.adapter "Time"]) := by
  constructor
  · intro cfg hf hd; simp [configOf, hf, hd, hv]
  · intro h
    by_cases hf : s.interfaceConfig = ""
    · simp [configOf, hf, hv]
    · simp [configOf, hf, hv, h.resolve_left hf]

/-- **C140, the viewer.** With `-v` a viewer in the file is left out, so there is only the one asked for, if the file has at most one; everything else stays. -/
theorem c140_viewer_partial (l : List Item) (h : l.count (.listener "LuvListener") ≤ 1) : dropViewer l = l.filter (fun i => decide (i ≠ .listener "LuvListener")) := by
  induction l with
  | nil => rfl
  | cons i l ih =>
    cases i with
    | adapter t =>
      rw [List.count_cons] at h
      rw [dropViewer, ih (by omega), List.filter_cons_of_pos (by simp)]
      intro _ h'; cases h'
    | listener t =>
      rw [dropViewer]
      by_cases ht : t = "LuvListener"
      · subst ht
        rw [if_pos rfl, List.filter_cons_of_neg (by simp)]
        rw [List.count_cons_self] at h
        have : Item.listener "LuvListener" ∉ l := List.count_eq_zero.1 (by omega)
        exact (List.filter_eq_self.2 fun a ha => by simp; rintro rfl; exact this ha).symm
      · rw [List.count_cons] at h
        rw [if_neg ht, ih (by omega), List.filter_cons_of_pos (by simpa using ht)]

/-- **C140, refuted: only one viewer.** With two in the file, one of them stays. -/
theorem c140_viewer_refuted : Item.listener "LuvListener" ∈ dropViewer [.listener "LuvListener", .listener "LuvListener"] := by simp [dropViewer]

/-- **C140, finalizers.** They are run at the end in every case, also if the options are not accepted. -/
theorem c140_finalizers (w : World) (args : List String) : (main num w args).1.getLast? = some .finalizers := by
  unfold main
  cases parse num args <;> simp

/-- **C140, the whole program.** It ends with code 0 if and only if help was asked for, or the options are accepted and everything goes well. -/
theorem c140_main (w : World) (args : List String) :
    (main num w args).2 = 0 ↔ (∃ os rest, args = render os ++ "-h" :: rest ∧ Allowed os ∧ .viewer ∉ os) ∨
      (∃ os cfg, os ≠ [] ∧ args = render os ∧ Allowed os ∧ AllWell w (meaning num os) cfg) := by
  unfold main
  cases h : parse num args with
  | exit c =>
    rw [← c139_help (num := num), h]
    constructor
    · intro hc; left; exact congrArg Parsed.exit hc
    · rintro (hc | ⟨os, cfg, hne, he, ha, _⟩)
      · cases hc; rfl
      · have := (c139_goes_on (num := num) args _).2 ⟨os, hne, he, ha, rfl⟩
        rw [h] at this; cases this
  | go s =>
    rw [← c139_help (num := num), h]
    obtain ⟨os, hne, he, ha, rfl⟩ := (c139_goes_on args s).1 h
    simp only [(c140_code w _).1]
    constructor
    · rintro ⟨cfg, hw⟩; exact .inr ⟨os, cfg, hne, he, ha, hw⟩
    · rintro (hc | ⟨os', cfg, _, he', _, hw⟩)
      · cases hc
      · rw [he] at he'; cases render_inj he'; exact ⟨cfg, hw⟩

/-- A world in which everything goes well, there being no files but the plan. -/
def exWorld : World where
  debugFile _ := false
  config _ := ⟨false, true, none⟩
  init _ := true
  loadLibrary _ := true
  startInterfaces := true
  run := true
  planOk _ := true
  addPlan _ := true

/-- The hypotheses are met: a plan with a library in that world. -/
example : AllWell exWorld { plan := "a.plx", libraries := ["b.plx"] } [.adapter "Time"] :=
  ⟨by simp [configOf, exWorld], rfl, fun _ _ => rfl, rfl, rfl, fun _ => ⟨rfl, rfl⟩⟩

/-- What is done then. -/
example : main num exWorld ["-p", "a.plx", "-l", "b.plx"] = ([.readConfig "interface-config.xml", .readResources "resource.data", .initApp [.adapter "Time"], .loadLibrary "b.plx",
    .startInterfaces, .run, .loadPlan "a.plx", .addPlan "a.plx", .notifyAndWait, .waitForPlanFinished, .stop, .finalizers], 0) := by
  simp [main, parse, options, body, exWorld, configOf, loadAll, planPart]

end Verif.Main
