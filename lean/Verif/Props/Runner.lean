import Verif.Runner.Model
/-
C145: the command line of `TestExec`. C146: what it does, and how it ends.
-/
set_option autoImplicit false
set_option linter.unusedSimpArgs false
namespace Verif.Runner

/-! ## Specification -/

/-- The options a user can give. -/
inductive Opt where
  | plan (f : String)
  | script (f : String)
  | lib (f : String)
  | path (d : String)
  | debug (f : String)
  | noDebug
  | res (f : String)
  | noRes
  | viewer
  | block
  | host (h : String)
  | port (n : String)
  | log (f : String)
  | errorPrompt
  | warnPrompt
deriving DecidableEq, Repr

/-- How they are written. -/
def Opt.words : Opt → List String
  | .plan f => ["-p", f]
  | .script f => ["-s", f]
  | .lib f => ["-l", f]
  | .path d => ["-L", d]
  | .debug f => ["-d", f]
  | .noDebug => ["+d"]
  | .res f => ["-r", f]
  | .noRes => ["+r"]
  | .viewer => ["-v"]
  | .block => ["-b"]
  | .host h => ["-h", h]
  | .port n => ["-n", n]
  | .log f => ["-log", f]
  | .errorPrompt => ["-eprompt"]
  | .warnPrompt => ["-wprompt"]

/-- A command line. -/
def render (os : List Opt) : List String := os.flatMap Opt.words

/-- The file of a `-p`. -/
def Opt.plan? : Opt → Option String | .plan f => some f | _ => none
/-- The file of a `-s`. -/
def Opt.script? : Opt → Option String | .script f => some f | _ => none
/-- The file of a `-d`. -/
def Opt.debug? : Opt → Option String | .debug f => some f | _ => none
/-- The name of a `-l`. -/
def Opt.lib? : Opt → Option String | .lib f => some f | _ => none
/-- The directory of a `-L`. -/
def Opt.path? : Opt → Option String | .path f => some f | _ => none
/-- The host of a `-h`. -/
def Opt.host? : Opt → Option String | .host f => some f | _ => none
/-- The file of a `-r`. -/
def Opt.res? : Opt → Option String | .res f => some f | _ => none
/-- The text of a `-n`. -/
def Opt.port? : Opt → Option String | .port f => some f | _ => none
/-- The file of a `-log`. -/
def Opt.log? : Opt → Option String | .log f => some f | _ => none

/-- The options that may be given together: at most one `-d`, and not with `+d`; at most one `-r`, and not with `+r`. -/
structure Allowed (os : List Opt) : Prop where
  debug : (os.filterMap Opt.debug?).length ≤ 1
  noDebug : .noDebug ∈ os → os.filterMap Opt.debug? = []
  res : (os.filterMap Opt.res?).length ≤ 1
  noRes : .noRes ∈ os → os.filterMap Opt.res? = []

/-- What they mean: the last one counts; libraries and directories add up, in their order. -/
def meaning (num : String → Int) (os : List Opt) : Settings where
  plan := (os.filterMap Opt.plan?).getLast?.getD "error"
  script := (os.filterMap Opt.script?).getLast?.getD "error"
  debugConfig := if .noDebug ∈ os then "" else (os.filterMap Opt.debug?).getLast?.getD "Debug.cfg"
  resourceFile := if .noRes ∈ os then "" else (os.filterMap Opt.res?).getLast?.getD "resource.data"
  libraries := os.filterMap Opt.lib?
  paths := os.filterMap Opt.path?
  host := (os.filterMap Opt.host?).getLast?.getD "localhost"
  port := ((os.filterMap Opt.port?).getLast?.map num).getD 49100
  block := decide (.block ∈ os)
  luv := decide (.viewer ∈ os)
  debugSupplied := !(os.filterMap Opt.debug?).isEmpty
  useDebug := decide (.noDebug ∉ os)
  resourceSupplied := !(os.filterMap Opt.res?).isEmpty
  useResource := decide (.noRes ∉ os)
  logFile := (os.filterMap Opt.log?).getLast?
  errorPrompt := decide (.errorPrompt ∈ os)
  warnPrompt := decide (.warnPrompt ∈ os)

/-! ## Proofs: the command line -/

variable {num : String → Int}

private theorem allowed_prefix {os ps : List Opt} (h : Allowed (os ++ ps)) : Allowed os := by
  refine ⟨?_, fun hm => ?_, ?_, fun hm => ?_⟩
  · have := h.debug; simp at this; omega
  · have := h.noDebug (by simp [hm]); simp at this; exact List.filterMap_eq_nil_iff.2 (fun a ha => this.1 a ha)
  · have := h.res; simp at this; omega
  · have := h.noRes (by simp [hm]); simp at this; exact List.filterMap_eq_nil_iff.2 (fun a ha => this.1 a ha)

/-- One more option. -/
private theorem allowed_snoc (os : List Opt) (o : Opt) (h : Allowed os) : Allowed (os ++ [o]) ↔
    (match o with
      | .debug _ => os.filterMap Opt.debug? = [] ∧ .noDebug ∉ os
      | .noDebug => os.filterMap Opt.debug? = []
      | .res _ => os.filterMap Opt.res? = [] ∧ .noRes ∉ os
      | .noRes => os.filterMap Opt.res? = []
      | _ => True) := by
  constructor
  · rintro ⟨h1, h2, h3, h4⟩
    cases o <;> simp_all [-List.filterMap_eq_nil_iff, List.filterMap_cons, Opt.debug?, Opt.res?]
  · intro H
    have a1 := h.debug; have a2 := h.noDebug; have a3 := h.res; have a4 := h.noRes
    refine ⟨?_, ?_, ?_, ?_⟩ <;> cases o <;> simp_all [-List.filterMap_eq_nil_iff, List.filterMap_cons, Opt.debug?, Opt.res?]

/-- A further option is read. -/
private theorem step (os : List Opt) (o : Opt) (rest : List String) (h : Allowed (os ++ [o])) :
    options num (meaning num os) (o.words ++ rest) = options num (meaning num (os ++ [o])) rest := by
  have ha := allowed_prefix h
  rw [allowed_snoc os o ha] at h
  conv => lhs; unfold options
  cases o <;> simp only [Opt.words, List.cons_append, List.nil_append, reduceIte, String.reduceEq] <;>
    simp_all [-List.filterMap_eq_nil_iff, List.filterMap_cons, meaning, Opt.script?, Opt.log?, Opt.debug?, Opt.lib?, Opt.path?, Opt.host?, Opt.plan?, Opt.res?, Opt.port?]

/-- An option that may not follow. -/
private theorem step_bad (os : List Opt) (o : Opt) (rest : List String) (h : Allowed os) (hn : ¬ Allowed (os ++ [o])) :
    options num (meaning num os) (o.words ++ rest) = .exit 2 := by
  rw [allowed_snoc os o h] at hn
  unfold options
  cases o <;> simp only [Opt.words, List.cons_append, List.nil_append, reduceIte, String.reduceEq] <;>
    simp_all [-List.filterMap_eq_nil_iff, List.filterMap_cons, meaning]
  · intro a b; exact absurd (hn b) a
  · intro a b; exact absurd (hn b) a

/-- What is left is not an option with its argument. -/
private theorem stuck (s : Settings) (a : String) (as : List String) (h : ¬ ∃ o rest, a :: as = Opt.words o ++ rest) :
    options num s (a :: as) = .exit 2 := by
  have two : ∀ (f : String → Opt) (w : String), (∀ x, (f x).words = [w, x]) → a = w → as = [] := by
    intro f w hf hw
    cases as with
    | nil => rfl
    | cons x as => exact absurd ⟨f x, as, by rw [hf, hw]; rfl⟩ h
  have one : ∀ (o : Opt) (w : String), o.words = [w] → a ≠ w := by
    intro o w ho hw; exact h ⟨o, as, by rw [ho, hw]; rfl⟩
  have e1 := one .noDebug _ rfl; have e2 := one .noRes _ rfl; have e3 := one .viewer _ rfl; have e4 := one .block _ rfl
  have e5 := one .errorPrompt _ rfl; have e6 := one .warnPrompt _ rfl
  by_cases c1 : a = "-p"
  · have := two .plan _ (fun _ => rfl) c1; subst this; subst c1; simp [options]
  by_cases c2 : a = "-d"
  · have := two .debug _ (fun _ => rfl) c2; subst this; subst c2; simp [options]
  by_cases c3 : a = "-l"
  · have := two .lib _ (fun _ => rfl) c3; subst this; subst c3; simp [options]
  by_cases c4 : a = "-L"
  · have := two .path _ (fun _ => rfl) c4; subst this; subst c4; simp [options]
  by_cases c5 : a = "-h"
  · have := two .host _ (fun _ => rfl) c5; subst this; subst c5; simp [options]
  by_cases c6 : a = "-s"
  · have := two .script _ (fun _ => rfl) c6; subst this; subst c6; simp [options]
  by_cases c7 : a = "-r"
  · have := two .res _ (fun _ => rfl) c7; subst this; subst c7; simp [options]
  by_cases c8 : a = "-n"
  · have := two .port _ (fun _ => rfl) c8; subst this; subst c8; simp [options]
  by_cases c9 : a = "-log"
  · have := two .log _ (fun _ => rfl) c9; subst this; subst c9; simp [options]
  unfold options
  simp only [c1, c2, c3, c4, c5, c6, c7, c8, c9, e1, e2, e3, e4, e5, e6, if_false]

private theorem words_inj {o o' : Opt} {r r' : List String} (h : o.words ++ r = o'.words ++ r') : o = o' ∧ r = r' := by
  cases o <;> cases o' <;> simp_all [Opt.words]

private theorem words_pos (o : Opt) : 0 < o.words.length := by cases o <;> simp [Opt.words]

/-- From any point on: the outcome, and what was read. -/
private theorem outcome : ∀ (n : Nat) (os : List Opt) (args : List String), args.length ≤ n → Allowed os →
    (∃ ps, args = render ps ∧ Allowed (os ++ ps) ∧ options num (meaning num os) args = .go (meaning num (os ++ ps))) ∨
    ((∀ ps, args = render ps → ¬ Allowed (os ++ ps)) ∧ options num (meaning num os) args = .exit 2) := by
  intro n
  induction n with
  | zero =>
    intro os args hl ha
    have : args = [] := List.length_eq_zero_iff.1 (by omega)
    subst this
    exact .inl ⟨[], rfl, by simpa using ha, by simp [options]⟩
  | succ n ih =>
    intro os args hl ha
    cases args with
    | nil => exact .inl ⟨[], rfl, by simpa using ha, by simp [options]⟩
    | cons a as =>
      by_cases hw : ∃ o rest, a :: as = Opt.words o ++ rest
      · obtain ⟨o, rest, he⟩ := hw
        rw [he] at hl ⊢
        have hlen : rest.length ≤ n := by have := words_pos o; simp at hl; omega
        have nonempty : ∀ ps, o.words ++ rest = render ps → ∃ ps', ps = o :: ps' ∧ rest = render ps' := by
          intro ps hp
          cases ps with
          | nil =>
            have h5 := congrArg List.length hp
            have h6 := words_pos o
            simp only [render, List.flatMap_nil, List.length_append, List.length_nil] at h5; omega
          | cons p ps =>
            obtain ⟨rfl, hr⟩ := words_inj (r' := render ps) hp
            exact ⟨ps, rfl, hr⟩
        have assoc : ∀ ps, os ++ o :: ps = os ++ [o] ++ ps := fun ps => by simp
        by_cases hal : Allowed (os ++ [o])
        · rw [step os o rest hal]
          rcases ih (os ++ [o]) rest hlen hal with ⟨ps, h1, h2, h3⟩ | ⟨h1, h2⟩
          · exact .inl ⟨o :: ps, by rw [h1]; rfl, by rw [assoc]; exact h2, by rw [h3, ← assoc]⟩
          · refine .inr ⟨fun ps hp => ?_, h2⟩
            obtain ⟨ps', rfl, hr⟩ := nonempty ps hp
            rw [assoc]; exact h1 ps' hr
        · rw [step_bad os o rest ha hal]
          refine .inr ⟨fun ps hp h' => ?_, rfl⟩
          obtain ⟨ps', rfl, hr⟩ := nonempty ps hp
          rw [assoc] at h'
          exact hal (allowed_prefix h')
      · rw [stuck _ _ _ hw]
        refine .inr ⟨fun ps hp => ?_, rfl⟩
        cases ps with
        | nil => simp [render] at hp
        | cons p ps => exact absurd ⟨p, render ps, hp⟩ hw

private theorem render_inj : ∀ {os ps : List Opt}, render os = render ps → os = ps
  | [], [], _ => rfl
  | [], p :: ps, h => by have h6 := words_pos p; have h5 := congrArg List.length h; simp only [render, List.flatMap_nil, List.flatMap_cons, List.length_append, List.length_nil] at h5; omega
  | o :: os, [], h => by have h6 := words_pos o; have h5 := congrArg List.length h; simp only [render, List.flatMap_nil, List.flatMap_cons, List.length_append, List.length_nil] at h5; omega
  | o :: os, p :: ps, h => by
    obtain ⟨rfl, h'⟩ := words_inj (r := render os) (r' := render ps) h
    rw [render_inj h']

private theorem allowed_nil : Allowed [] := ⟨by simp, by simp, by simp, by simp⟩

private theorem meaning_nil : meaning num [] = {} := by simp [meaning]

private theorem long (os : List Opt) : 2 * (os.filterMap Opt.plan?).length + 2 * (os.filterMap Opt.script?).length ≤ (render os).length := by
  induction os with
  | nil => simp [render]
  | cons o os ih =>
    have e : render (o :: os) = o.words ++ render os := rfl
    rw [e, List.length_append]
    cases o <;> simp [List.filterMap_cons, Opt.plan?, Opt.script?, Opt.words] at ih ⊢ <;> omega

private theorem given {l : List String} (h : l.getLast?.getD "error" ≠ "error") : 1 ≤ l.length := by
  cases l with
  | nil => simp at h
  | cons a l => simp

/-- **C145, what goes on.** The program goes on with these settings if and only if the command line consists of options that may be given together, the settings are what they mean, and the last plan and the last script given are not named `error`. -/
theorem c145_goes_on (args : List String) (s : Settings) :
    parse num args = .go s ↔ ∃ os, args = render os ∧ Allowed os ∧ s = meaning num os ∧
      (∃ f, (os.filterMap Opt.plan?).getLast? = some f ∧ f ≠ "error") ∧ (∃ f, (os.filterMap Opt.script?).getLast? = some f ∧ f ≠ "error") := by
  have named : ∀ l : List String, (∃ f, l.getLast? = some f ∧ f ≠ "error") ↔ l.getLast?.getD "error" ≠ "error" := by
    intro l; cases l.getLast? <;> simp
  simp only [named]
  unfold parse
  by_cases h4 : args.length < 4
  · rw [if_pos h4]
    constructor
    · intro h; split at h <;> cases h
    · rintro ⟨os, rfl, _, _, hp, hs⟩
      have := long os; have := given hp; have := given hs
      omega
  · rw [if_neg h4, ← meaning_nil (num := num)]
    rcases outcome (num := num) args.length [] args (Nat.le_refl _) allowed_nil with ⟨ps, h1, h2, h3⟩ | ⟨h1, h3⟩
    · rw [h3]
      simp only [List.nil_append] at h2 ⊢
      constructor
      · intro h
        split at h
        · cases h
        · split at h
          · cases h
          · rename_i a b
            cases h
            exact ⟨ps, h1, h2, rfl, b, a⟩
      · rintro ⟨os, e1, e2, e3, e4, e5⟩
        have : os = ps := render_inj (e1.symm.trans h1)
        subst this
        rw [if_neg (show (meaning num os).script ≠ "error" from e5), if_neg (show (meaning num os).plan ≠ "error" from e4), e3]
    · rw [h3]
      constructor
      · intro h; cases h
      · rintro ⟨os, e1, e2, _⟩; exact absurd e2 (h1 os e1)

/-- **C145, the others.** Any other command line ends the program, with code 2, except that fewer than four words of which the first is `-h` end it with code 0. -/
theorem c145_rejected (args : List String) (h : ∀ s, parse num args ≠ .go s) :
    parse num args = if args.length < 4 ∧ args.head? = some "-h" then .exit 0 else .exit 2 := by
  unfold parse at h ⊢
  by_cases h4 : args.length < 4
  · simp [h4]
  · simp only [h4, if_false, false_and] at h ⊢
    rw [← meaning_nil (num := num)] at h ⊢
    rcases outcome (num := num) args.length [] args (Nat.le_refl _) allowed_nil with ⟨ps, h1, h2, h3⟩ | ⟨h1, h3⟩
    · rw [h3] at h ⊢
      dsimp only at h ⊢
      split
      · rfl
      · split
        · rfl
        · rename_i a b; exact absurd (by rw [if_neg a, if_neg b]) (h (meaning num ([] ++ ps)))
    · rw [h3]

/-- **C145 is false** of files called `error`: a plan, or a script, that is given, is said not to be. -/
theorem c145_error_refuted (f : String) : parse num ["-p", "error", "-s", f] = .exit 2 ∧ parse num ["-p", f, "-s", "error"] = .exit 2 := by
  constructor <;> simp [parse, options]

/-- A command line that goes on. -/
example : parse num ["-p", "a.plx", "-s", "b.psx", "-l", "x", "+d", "-l", "y", "-p", "c.plx"] =
    .go { plan := "c.plx", script := "b.psx", libraries := ["x", "y"], useDebug := false, debugConfig := "" } := by
  rw [c145_goes_on]
  refine ⟨[.plan "a.plx", .script "b.psx", .lib "x", .noDebug, .lib "y", .plan "c.plx"], rfl, ?_, ?_, ⟨"c.plx", rfl, by simp⟩, ⟨"b.psx", rfl, by simp⟩⟩
  · exact ⟨by simp [List.filterMap_cons, Opt.debug?], by simp [Opt.debug?], by simp [List.filterMap_cons, Opt.res?], by simp [Opt.res?]⟩
  · simp [meaning, List.filterMap_cons, Opt.plan?, Opt.script?, Opt.debug?, Opt.lib?, Opt.path?, Opt.host?, Opt.res?, Opt.port?, Opt.log?]

/-- Some that do not. -/
example : parse num ["-p", "a", "-s"] = .exit 2 ∧ parse num ["-p", "a", "-s", "b", "-d", "f", "+d"] = .exit 2 ∧ parse num ["-h"] = .exit 0 ∧ parse num ["-p", "a", "-p", "b"] = .exit 2 :=
  ⟨by rfl, by rfl, by rfl, by rfl⟩

/-! ## Proofs: what the program does -/

/-- The name of the file ends as the manual says unless the name contains `.plx`. -/
theorem hasPlx_iff (l : List Char) : hasPlx l = true ↔ ∃ a b, l = a ++ ['.', 'p', 'l', 'x'] ++ b := by
  induction l with
  | nil => simp [hasPlx]
  | cons c cs ih =>
    simp only [hasPlx, Bool.or_eq_true, ih, List.isPrefixOf_iff_prefix]
    constructor
    · rintro (⟨b, hb⟩ | ⟨a, b, hb⟩)
      · exact ⟨[], b, by simpa using hb.symm⟩
      · exact ⟨c :: a, b, by simp [hb]⟩
    · rintro ⟨a, b, h⟩
      cases a with
      | nil => exact .inl ⟨b, by simpa using h.symm⟩
      | cons x a => simp only [List.cons_append, List.cons.injEq] at h; exact .inr ⟨a, b, h.2⟩

open Classical in
/-- **C146, libraries**: `.plx` is added to a name unless the name contains it, anywhere. -/
theorem c146_file (name : String) : fileName name = (if ∃ a b, name.toList = a ++ ['.', 'p', 'l', 'x'] ++ b then name else name ++ ".plx") := by
  unfold fileName
  by_cases h : hasPlx name.toList = true
  · rw [if_pos h, if_pos ((hasPlx_iff _).1 h)]
  · rw [if_neg h, if_neg (fun c => h ((hasPlx_iff _).2 c))]

/-- So `a.plxml` is looked for under that name, not as `a.plxml.plx`. -/
example : fileName "a.plxml" = "a.plxml" ∧ fileName "a" = "a.plx" := by
  constructor
  · simp [fileName, hasPlx]
  · simp [fileName, hasPlx]

private theorem loadAll_true (w : World) : ∀ ns : List String, (∀ n ∈ ns, w.library (fileName n) = .loaded) → loadAll w ns = (ns.map (fun n => .loadLibrary (fileName n)), true)
  | [], _ => rfl
  | n :: ns, h => by simp [loadAll, h n (by simp), loadAll_true w ns (fun m hm => h m (by simp [hm]))]

private theorem loadAll_false (w : World) : ∀ ns : List String, (¬ ∀ n ∈ ns, w.library (fileName n) = .loaded) →
    (loadAll w ns).2 = false ∧ ∃ pre n post, ns = pre ++ n :: post ∧ (∀ m ∈ pre, w.library (fileName m) = .loaded) ∧ w.library (fileName n) ≠ .loaded ∧
      (loadAll w ns).1 = (pre ++ [n]).map (fun n => .loadLibrary (fileName n))
  | [], h => absurd (fun _ hn => by simp at hn) h
  | n :: ns, h => by
    cases hl : w.library (fileName n) with
    | loaded =>
      have h' : ¬ ∀ m ∈ ns, w.library (fileName m) = .loaded := fun c => h (fun m hm => by
        rcases List.mem_cons.1 hm with rfl | hm
        · exact hl
        · exact c m hm)
      obtain ⟨e1, pre, x, post, e2, e3, e4, e5⟩ := loadAll_false w ns h'
      refine ⟨by simp [loadAll, hl, e1], n :: pre, x, post, by simp [e2], ?_, e4, by simp [loadAll, hl, e5]⟩
      intro m hm
      rcases List.mem_cons.1 hm with rfl | hm
      · exact hl
      · exact e3 m hm
    | missing => exact ⟨by simp [loadAll, hl], [], n, ns, rfl, by simp, by simp [hl], by simp [loadAll, hl]⟩
    | malformed => exact ⟨by simp [loadAll, hl], [], n, ns, rfl, by simp, by simp [hl], by simp [loadAll, hl]⟩

/-- The script is run: everything before went well. -/
structure Ready (w : World) (s : Settings) : Prop where
  libs : ∀ n ∈ s.libraries, w.library (fileName n) = .loaded
  plan : w.plan s.plan = .doc .accepted
  script : w.script s.script = .doc .runs ∨ w.script s.script = .doc .throws

open Classical in
/-- **C146, the code.** If the files of plan and script are well-formed XML or not there at all, and running the script throws nothing, the program ends with 0 if every library is loaded, the plan accepted and the script one, and otherwise with 1. -/
theorem c146_code_partial (w : World) (s : Settings) (hp : w.plan s.plan ≠ .malformed) (hs : w.script s.script ≠ .malformed) (ht : w.script s.script ≠ .doc .throws) :
    (body w s).2 = (if Ready w s then .code 0 else .code 1) := by
  by_cases hl : ∀ n ∈ s.libraries, w.library (fileName n) = .loaded
  · simp only [body, loadAll_true w _ hl]
    cases h1 : w.plan s.plan with
    | missing => rw [if_neg (fun r => by have := r.plan; simp [h1] at this)]; simp [planPart, h1]
    | malformed => exact absurd h1 hp
    | doc d =>
      cases d with
      | wrong => rw [if_neg (fun r => by have := r.plan; simp [h1] at this)]; simp [planPart, h1]
      | refused => rw [if_neg (fun r => by have := r.plan; simp [h1] at this)]; simp [planPart, h1]
      | accepted =>
        cases h2 : w.script s.script with
        | missing => rw [if_neg (fun r => by have := r.script; simp [h2] at this)]; simp [planPart, scriptPart, h1, h2]
        | malformed => exact absurd h2 hs
        | doc d =>
          cases d with
          | noScript => rw [if_neg (fun r => by have := r.script; simp [h2] at this)]; simp [planPart, scriptPart, h1, h2]
          | throws => exact absurd h2 ht
          | runs => rw [if_pos ⟨hl, h1, .inl h2⟩]; simp [planPart, scriptPart, h1, h2]
  · rw [if_neg (fun r => hl r.libs)]
    have := (loadAll_false w _ hl).1
    unfold body
    split
    · rfl
    · rename_i es he; rw [he] at this; simp at this

/-- **C146, in order.** The script is run only if every library is loaded, the plan accepted and the script one; then everything has been done before it in the order of the manual. -/
theorem c146_order (w : World) (s : Settings) : .runScript ∈ (body w s).1 ↔ Ready w s := by
  have nos : Event.runScript ∉ setup w s := by
    unfold setup
    cases s.logFile <;> simp <;> (repeat' split) <;> simp
  have nol : ∀ ns : List String, Event.runScript ∉ ns.map (fun n => Event.loadLibrary (fileName n)) := by intro ns h; simp at h
  by_cases hl : ∀ n ∈ s.libraries, w.library (fileName n) = .loaded
  · simp only [body, loadAll_true w _ hl, List.mem_append, nos, nol, false_or]
    constructor
    · intro h
      cases h1 : w.plan s.plan with
      | missing => simp [planPart, h1] at h
      | malformed => simp [planPart, h1] at h
      | doc d =>
        cases d with
        | wrong => simp [planPart, h1] at h
        | refused => simp [planPart, h1] at h
        | accepted =>
          refine ⟨hl, h1, ?_⟩
          cases h2 : w.script s.script with
          | missing => simp [planPart, scriptPart, h1, h2] at h
          | malformed => simp [planPart, scriptPart, h1, h2] at h
          | doc d => cases d <;> simp [planPart, scriptPart, h1, h2] at h ⊢
    · rintro ⟨_, h1, h2 | h2⟩ <;> simp [planPart, scriptPart, h1, h2]
  · constructor
    · intro h
      obtain ⟨e, pre, n, post, e2, e3, e4, e5⟩ := loadAll_false w _ hl
      unfold body at h
      split at h
      · rename_i es he
        rw [he] at e5
        simp only at e5
        subst e5
        simp only [List.mem_append, nos, nol, false_or] at h
        simp at h
      · rename_i es he; rw [he] at e; simp at e
    · exact fun r => absurd r.libs hl

/-- What is done when all goes well. -/
theorem c146_script (w : World) (s : Settings) (r : Ready w s) (ht : w.script s.script = .doc .runs) :
    (body w s).1 = (match s.logFile with | none => [] | some f => [.log f]) ++ (if s.useDebug && w.debugFile s.debugConfig then [.readDebug s.debugConfig] else []) ++ [.setPaths s.paths] ++
      (if s.useResource then [.readResources s.resourceFile] else []) ++ (if s.luv && w.viewer s.host s.port s.block then [.addViewer] else []) ++
      s.libraries.map (fun n => .loadLibrary (fileName n)) ++ [.loadPlan s.plan, .planParsed, .addPlan, .loadScript s.script, .runScript, .deleteExec] := by
  simp [body, loadAll_true w _ r.libs, planPart, r.plan, scriptPart, ht, setup]
  cases s.logFile <;> rfl

/-- **C146, a library that is not loaded** ends the program: no other one is loaded, nor the plan. -/
theorem c146_library (w : World) (s : Settings) (hl : ¬ ∀ n ∈ s.libraries, w.library (fileName n) = .loaded) :
    ∃ pre n post, s.libraries = pre ++ n :: post ∧ (∀ m ∈ pre, w.library (fileName m) = .loaded) ∧ w.library (fileName n) ≠ .loaded ∧
      body w s = (setup w s ++ (pre ++ [n]).map (fun n => .loadLibrary (fileName n)) ++ [.deleteExec], .code 1) := by
  obtain ⟨e, pre, n, post, e2, e3, e4, e5⟩ := loadAll_false w _ hl
  refine ⟨pre, n, post, e2, e3, e4, ?_⟩
  unfold body
  split
  · rename_i es he; rw [he] at e5; simp only at e5; rw [e5]
  · rename_i es he; rw [he] at e; simp at e

/-- **C146, the executive is deleted** whenever the program ends with a code, last before the finalizers. -/
theorem c146_deleted (w : World) (s : Settings) (n : Nat) (h : (body w s).2 = .code n) : (body w s).1.getLast? = some .deleteExec := by
  unfold body at h ⊢
  split
  · simp
  · rename_i es he
    rw [he] at h
    simp only at h ⊢
    have : (planPart w s).1.getLast? = some .deleteExec := by
      unfold planPart scriptPart at h ⊢
      cases h1 : w.plan s.plan with
      | missing => simp
      | malformed => simp [h1] at h
      | doc d =>
        cases d with
        | wrong => simp
        | refused => simp
        | accepted =>
          cases h2 : w.script s.script with
          | missing => simp
          | malformed => simp [h1, h2] at h
          | doc d => cases d <;> simp [h1, h2] at h ⊢
    rw [List.getLast?_append, this]; rfl

/-- **C146, the whole program**: the finalizers run last whenever it ends with a code, also of a refused command line. -/
theorem c146_main (w : World) (args : List String) (n : Nat) (h : (main num w args).2 = .code n) : (main num w args).1.getLast? = some .finalizers := by
  unfold main at h ⊢
  split
  · rfl
  · rename_i s hs
    rw [hs] at h
    simp only at h
    split
    · simp
    · rename_i hn
      cases hb : body w s with
      | mk es e =>
        rw [hb] at h hn
        cases e with
        | code k => rename_i H; exact (H k (congrArg Prod.snd hn).symm).elim
        | abort => simp at h
        | undefined => simp at h

/-- **C146 is false** when the file of the plan, or of the script, is there but is not well-formed XML (or cannot be read): after the message, a pointer that was never set is used. -/
theorem c146_malformed_refuted (w : World) (s : Settings) (hl : ∀ n ∈ s.libraries, w.library (fileName n) = .loaded)
    (h : w.plan s.plan = .malformed ∨ w.plan s.plan = .doc .accepted ∧ w.script s.script = .malformed) : (body w s).2 = .undefined := by
  rcases h with h | ⟨h, h'⟩ <;> simp [body, loadAll_true w _ hl, planPart, scriptPart, h, *]

/-- An error in the script ends the program without finalizers: no handler is in the way. -/
theorem c146_throws_refuted (w : World) (args : List String) (s : Settings) (ha : parse num args = .go s) (r : Ready w s) (h : w.script s.script = .doc .throws) :
    (main num w args).2 = .abort ∧ .finalizers ∉ (main num w args).1 ∧ .deleteExec ∉ (main num w args).1 := by
  have nos : ∀ e, (e = Event.finalizers ∨ e = .deleteExec) → e ∉ setup w s := by
    rintro e (rfl | rfl) <;> unfold setup <;> cases s.logFile <;> simp <;> (repeat' split) <;> simp
  simp [main, ha, body, loadAll_true w _ r.libs, planPart, r.plan, scriptPart, h, nos]

/-- Two libraries, of which the second is not there. -/
def exWorld : World where
  debugFile := fun _ => false
  viewer := fun _ _ _ => false
  library := fun f => if f = "x.plx" then .loaded else .missing
  plan := fun f => if f = "p" then .doc .accepted else if f = "bad" then .malformed else .missing
  script := fun f => if f = "s" then .doc .runs else .missing

example : Ready exWorld { plan := "p", script := "s", libraries := ["x"] } :=
  ⟨fun n hn => by simp at hn; subst hn; simp [exWorld, fileName, hasPlx], by simp [exWorld], .inl (by simp [exWorld])⟩

example : (body exWorld { plan := "bad", script := "s" }).2 = .undefined := by simp [body, loadAll, planPart, exWorld]

end Verif.Runner
