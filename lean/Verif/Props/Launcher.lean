import Verif.Launcher.Spec
import Verif.Props.Text
import Verif.Props.Wire
import Mathlib.Tactic.ByContra
set_option autoImplicit false
/-! C107 to C109. -/
namespace Verif.Launcher
open Verif.Text

theorem cstr_eq {s : List Char} (h : NoNul s) : cstr s = s := by
  unfold cstr
  induction s with
  | nil => rfl
  | cons c s ih =>
    have h1 : c ≠ '\x00' := fun e => h (by simp [e])
    rw [List.takeWhile_cons_of_pos (by simp [h1]), ih (fun hm => h (by simp [hm]))]

theorem noNul_append {s t : List Char} : NoNul (s ++ t) ↔ NoNul s ∧ NoNul t := by simp [NoNul, not_or]

theorem decimal_noNul (n : Nat) : NoNul (decimal n) := fun h => Verif.Ipc.digit_ne ((Verif.Ipc.decimal_digits n).2 _ h) (d := '\x00') (by decide) rfl

theorem callerId_noNul {name : List Char} (h : NoNul name) (n : Nat) : NoNul (callerId name n) := by
  unfold callerId
  rw [noNul_append]
  refine ⟨h, ?_⟩
  intro hc
  rcases List.mem_cons.1 hc with hc | hc
  · exact absurd hc (by decide)
  · exact decimal_noNul n hc

theorem printInteger_noNul (i : Int) : NoNul (printInteger i) := by
  unfold printInteger
  split
  · intro hc
    rcases List.mem_cons.1 hc with hc | hc
    · exact absurd hc (by decide)
    · exact decimal_noNul _ hc
  · exact decimal_noNul _

theorem printBoolean_noNul (b : Bool) : NoNul (printBoolean b) := by cases b <;> unfold NoNul <;> decide

/-- A value in an alias becomes what it should. -/
theorem create_toXml {R : Type} (rd : Reals R) (v w : Val R) (h1 : ∀ s, v = .str s → NoNul s) (h2 : ∀ r, v = .real r → NoNul (rd.print r)) :
    create rd (toXml rd v) = some w ↔ Arrives rd v w := by
  cases v with
  | unknown =>
    simp only [toXml, create]
    constructor
    · intro h; simp at h
    · intro h; cases h
  | bool b =>
    simp only [toXml, create, cstr_eq (printBoolean_noNul b), if_true, (c72_round_trip 0 (by decide) (by decide) b).2, fromParsed]
    constructor
    · intro h; cases h; exact .bool b
    · intro h; cases h; rfl
  | int i =>
    have hr : -2 ^ 31 ≤ i.toInt ∧ i.toInt < 2 ^ 31 := by
      have := i.le_toInt (w := 32); have := i.toInt_lt (w := 32); omega
    have hp := (c72_round_trip i.toInt hr.1 hr.2 true).1
    have e : create rd (toXml rd (.int i)) = some (.int i) := by
      simp only [toXml, create, cstr_eq (printInteger_noNul i.toInt)]
      rw [if_neg (by decide), if_pos trivial, hp]
      simp [fromParsed, BitVec.ofInt_toInt]
    rw [e]
    constructor
    · intro h; cases h; exact .int i
    · intro h; cases h; rfl
  | real r =>
    have e : create rd (toXml rd (.real r)) = fromParsed .real (parseReal rd (rd.print r)) := by
      simp only [toXml, create, cstr_eq (h2 r rfl)]
      rw [if_neg (by decide), if_neg (by decide), if_pos trivial]
    rw [e]
    constructor
    · intro h
      cases hp : parseReal rd (rd.print r) with
      | known a => rw [hp] at h; cases h; exact .real r a hp
      | unknown => rw [hp] at h; cases h; exact .realUnknown r hp
      | error => rw [hp] at h; cases h
    · intro h
      cases h with
      | real _ r' hp => rw [hp]; rfl
      | realUnknown _ hp => rw [hp]; rfl
  | str s =>
    have e : create rd (toXml rd (.str s)) = some (.str s) := by
      simp only [toXml, create, cstr_eq (h1 s rfl)]
      rw [if_neg (by decide), if_neg (by decide), if_neg (by decide), if_pos trivial]
      rfl
    rw [e]
    constructor
    · intro h; cases h; exact .str s
    · intro h; cases h; rfl
  | state x =>
    have e : create rd (toXml rd (.state x)) = (stateConstant (stateName x)).map .state := by
      simp only [toXml, create, String.ofList_toList]
      rw [if_neg (by decide), if_neg (by decide), if_neg (by decide), if_neg (by decide), if_pos trivial]
    rw [e, Option.map_eq_some_iff]
    constructor
    · rintro ⟨y, hy, rfl⟩
      obtain ⟨hy1, hy2⟩ := ((c73_constants_partial _).1 y).1 hy
      have hxy : x = y := by
        cases x <;> cases y <;> first | rfl | (revert hy2; decide) 
      subst hxy
      exact .state x hy1
    · intro h
      cases h with
      | state _ hx => exact ⟨x, ((c73_constants_partial _).1 x).2 ⟨hx, rfl⟩, rfl⟩
  | outcome x =>
    have e : create rd (toXml rd (.outcome x)) = (outcomeConstant (outcomeName x)).map .outcome := by
      simp only [toXml, create, String.ofList_toList]
      rw [if_neg (by decide), if_neg (by decide), if_neg (by decide), if_neg (by decide), if_neg (by decide), if_pos trivial]
    rw [e, Option.map_eq_some_iff]
    constructor
    · rintro ⟨y, hy, rfl⟩
      obtain ⟨hy1, hy2⟩ := ((c73_constants_partial _).2.1 y).1 hy
      have hxy : x = y := by
        cases x <;> cases y <;> first | rfl | (revert hy2; decide)
      subst hxy
      exact .outcome x hy1
    · intro h
      cases h with
      | outcome _ hx => exact ⟨x, ((c73_constants_partial _).2.1 x).2 ⟨hx, rfl⟩, rfl⟩
  | failure x =>
    have e : create rd (toXml rd (.failure x)) = (failureConstant (failureName x)).map .failure := by
      simp only [toXml, create, String.ofList_toList]
      rw [if_neg (by decide), if_neg (by decide), if_neg (by decide), if_neg (by decide), if_neg (by decide), if_neg (by decide), if_pos trivial]
    rw [e, Option.map_eq_some_iff]
    constructor
    · rintro ⟨y, hy, rfl⟩
      obtain ⟨hy1, hy2⟩ := ((c73_constants_partial _).2.2.1 y).1 hy
      have hxy : x = y := by
        cases x <;> cases y <;> first | rfl | (revert hy2; decide)
      subst hxy
      exact .failure x hy1
    · intro h
      cases h with
      | failure _ hx => exact ⟨x, ((c73_constants_partial _).2.2.1 x).2 ⟨hx, rfl⟩, rfl⟩
  | handle x =>
    have e : create rd (toXml rd (.handle x)) = (handleConstant (handleName x)).map .handle := by
      simp only [toXml, create, String.ofList_toList]
      rw [if_neg (by decide), if_neg (by decide), if_neg (by decide), if_neg (by decide), if_neg (by decide), if_neg (by decide), if_neg (by decide), if_pos trivial]
    rw [e, Option.map_eq_some_iff]
    constructor
    · rintro ⟨y, hy, rfl⟩
      obtain ⟨hy1, hy2⟩ := ((c73_constants_partial _).2.2.2 y).1 hy
      have hxy : x = y := by
        cases x <;> cases y <;> first | rfl | (revert hy2; decide)
      subst hxy
      exact .handle x hy1
    · intro h
      cases h with
      | handle _ hx => exact ⟨x, ((c73_constants_partial _).2.2.2 x).2 ⟨hx, rfl⟩, rfl⟩
  | array a =>
    have e : create rd (toXml rd (.array a)) = none := by
      cases a <;> simp only [toXml, create]
      · rw [show parseType "BooleanValue" = .unknown by decide]
      · rw [show parseType "IntegerValue" = .unknown by decide]
      · rw [show parseType "RealValue" = .unknown by decide]
      · rw [show parseType "StringValue" = .unknown by decide]
    rw [e]
    constructor
    · intro h; cases h
    · intro h; cases h

theorem createAll_iff {R : Type} (rd : Reals R) : ∀ (ps got : List (List Char × Val R)), Plain rd (ps.map Prod.snd) →
    (createAll rd (ps.map (fun p => (p.1, toXml rd p.2))) = some got ↔ List.Forall₂ (fun p q => p.1 = q.1 ∧ Arrives rd p.2 q.2) ps got)
  | [], got, _ => by
    simp only [List.map_nil, createAll]
    constructor
    · intro h; cases h; exact .nil
    · intro h; cases h; rfl
  | p :: ps, got, hp => by
    have ih := createAll_iff rd ps
    have h1 := hp p.2 (by simp)
    have h2 : Plain rd (ps.map Prod.snd) := fun v hv => hp v (by simp only [List.map_cons, List.mem_cons]; exact .inr hv)
    simp only [List.map_cons, createAll]
    constructor
    · intro h
      cases hc : create rd (toXml rd p.2) with
      | none => rw [hc] at h; simp at h
      | some v =>
        cases hr : createAll rd (ps.map (fun p => (p.1, toXml rd p.2))) with
        | none => rw [hc, hr] at h; simp at h
        | some vs =>
          rw [hc, hr] at h
          cases h
          exact .cons ⟨rfl, (create_toXml rd _ _ h1.1 h1.2).1 hc⟩ ((ih vs h2).1 hr)
    · intro h
      cases h with
      | @cons _ q _ qs hq hqs =>
        rw [(create_toXml rd _ _ h1.1 h1.2).2 hq.2, (ih qs h2).2 hqs]
        simp only [hq.1]

theorem checkAliases_iff : ∀ (l before : List (List Char)),
    checkAliases before l = true ↔ l.Nodup ∧ (∀ a ∈ l, a ≠ []) ∧ ∀ a ∈ l, a ∉ before
  | [], before => by simp [checkAliases]
  | a :: r, before => by
    rw [checkAliases, Bool.and_eq_true, Bool.and_eq_true, checkAliases_iff r]
    simp only [decide_eq_true_eq, Bool.not_eq_true', List.contains_eq_mem, decide_eq_false_iff_not, List.nodup_cons, List.mem_cons, not_or, ne_eq]
    constructor
    · rintro ⟨⟨h1, h2⟩, h3, h4, h5⟩
      refine ⟨⟨fun h => (h5 a h).1 rfl, h3⟩, ?_, ?_⟩
      · rintro b (rfl | hb)
        · exact h1
        · exact h4 b hb
      · rintro b (rfl | hb)
        · exact h2
        · exact (h5 b hb).2
    · rintro ⟨⟨h1, h2⟩, h3, h4⟩
      exact ⟨⟨h3 a (.inl rfl), h4 a (.inl rfl)⟩, h2, fun b hb => h3 b (.inr hb), fun b hb => ⟨fun e => h1 (e ▸ hb), h4 b (.inr hb)⟩⟩

theorem pairs_some {R : Type} : ∀ (args : List (Val R)) (ps : List (List Char × Val R)),
    pairs args = some ps ↔ args = ps.flatMap (fun p => [.str p.1, p.2]) ∧ ∀ p ∈ ps, p.2 ≠ .unknown
  | [], ps => by
    simp only [pairs]
    constructor
    · intro h; cases h; simp
    · rintro ⟨h, -⟩
      cases ps with
      | nil => rfl
      | cons p ps => simp at h
  | [v], ps => by
    constructor
    · intro h; unfold pairs at h; cases h
    · rintro ⟨h, -⟩
      cases ps with
      | nil => simp at h
      | cons p ps => simp at h
  | v :: w :: r, ps => by
    have ih := pairs_some r
    cases v with
    | str f =>
      by_cases hw : w = .unknown
      · subst hw
        constructor
        · intro h; simp [pairs] at h
        · rintro ⟨h, h2⟩
          cases ps with
          | nil => simp at h
          | cons p ps =>
            simp only [List.flatMap_cons, List.cons_append, List.nil_append, List.cons.injEq] at h
            exact absurd h.2.1.symm (h2 p (by simp))
      · have e : pairs (.str f :: w :: r) = (pairs r).map ((f, w) :: ·) := by
          cases w <;> first | exact (hw rfl).elim | simp [pairs]
        rw [e, Option.map_eq_some_iff]
        constructor
        · rintro ⟨qs, hq, rfl⟩
          obtain ⟨h1, h2⟩ := (ih qs).1 hq
          refine ⟨by simp [← h1], ?_⟩
          intro p hp
          rcases List.mem_cons.1 hp with rfl | hp
          · exact hw
          · exact h2 p hp
        · rintro ⟨h, h2⟩
          cases ps with
          | nil => simp at h
          | cons p ps =>
            simp only [List.flatMap_cons, List.cons_append, List.nil_append, List.cons.injEq, Val.str.injEq] at h
            refine ⟨ps, (ih ps).2 ⟨h.2.2, fun q hq => h2 q (by simp [hq])⟩, ?_⟩
            rw [h.1, h.2.1]
    | _ =>
      constructor
      · intro h; simp [pairs] at h
      · rintro ⟨h, -⟩
        cases ps with
        | nil => simp at h
        | cons p ps => simp at h

theorem forall2_left {α β : Type} {r : α → β → Prop} {l : List α} {l' : List β} (h : List.Forall₂ r l l') : ∀ a ∈ l, ∃ b ∈ l', r a b := by
  induction h with
  | nil => intro a ha; cases ha
  | cons h _ ih =>
    intro a ha
    rcases List.mem_cons.1 ha with rfl | ha
    · exact ⟨_, by simp, h⟩
    · obtain ⟨b, hb, hr⟩ := ih a ha
      exact ⟨b, by simp [hb], hr⟩

theorem arrives_known {R : Type} {rd : Reals R} {v w : Val R} (h : Arrives rd v w) : v ≠ .unknown := by
  rintro rfl; cases h

theorem parseWrapper_iff {R : Type} (rd : Reals R) (L : Libs R) (id name : List Char) (ps : List (List Char × Val R)) (hid : NoNul id) (hid0 : id ≠ []) (hn : NoNul name)
    (hps : ∀ p ∈ ps, NoNul p.1) (hpl : Plain rd (ps.map Prod.snd)) (p : Plan R) :
    parseWrapper rd L (wrapper rd id name ps) = some p ↔
      name ≠ [] ∧ (ps.map Prod.fst).Nodup ∧ (∀ p ∈ ps, p.1 ≠ []) ∧
        ∃ got accepts, List.Forall₂ (fun p q => p.1 = q.1 ∧ Arrives rd p.2 q.2) ps got ∧ L name = some accepts ∧ accepts got = true ∧
          p = ⟨id, some ("ExitPlan".toList, id), some (name, got)⟩ := by
  have ea : (wrapper rd id name ps).aliases = ps.map (fun p => (p.1, toXml rd p.2)) := by
    simp only [wrapper]
    apply List.map_congr_left
    intro q hq
    rw [cstr_eq (hps q hq)]
  have en : (wrapper rd id name ps).aliases.map Prod.fst = ps.map Prod.fst := by rw [ea, List.map_map]; rfl
  have ei : (wrapper rd id name ps).id = id := cstr_eq hid
  have ex : (wrapper rd id name ps).exitArg = id := cstr_eq hid
  have ec : (wrapper rd id name ps).callee = name := cstr_eq hn
  unfold parseWrapper
  rw [en, ei, ec, ea]
  by_cases h0 : name = []
  · rw [if_pos (.inr h0)]
    simp [h0]
  rw [if_neg (by rintro (h | h); exacts [hid0 h, h0 h])]
  by_cases hal : checkAliases [] (ps.map Prod.fst) = false
  · rw [if_pos hal]
    constructor
    · intro h; cases h
    · rintro ⟨-, h1, h2, -⟩
      have : checkAliases [] (ps.map Prod.fst) = true := (checkAliases_iff _ _).2 ⟨h1, by simpa using h2, by simp⟩
      rw [hal] at this; cases this
  rw [if_neg hal]
  obtain ⟨a1, a2, -⟩ := (checkAliases_iff _ _).1 (by simpa using hal)
  have a2' : ∀ p ∈ ps, p.1 ≠ [] := fun p hp => a2 _ (List.mem_map_of_mem hp)
  cases hL : L name with
  | none => simp
  | some accepts =>
    simp only
    cases hc : createAll rd (ps.map (fun p => (p.1, toXml rd p.2))) with
    | none =>
      simp only [finishCall]
      constructor
      · intro h; cases h
      · rintro ⟨-, -, -, got, acc, hf, -⟩
        rw [(createAll_iff rd ps got hpl).2 hf] at hc
        cases hc
    | some got =>
      have hf := (createAll_iff rd ps got hpl).1 hc
      simp only [finishCall, ei, ex, ec]
      by_cases hacc : accepts got = true
      · rw [if_pos hacc]
        constructor
        · intro h
          cases h
          exact ⟨h0, a1, a2', got, accepts, hf, rfl, hacc, rfl⟩
        · rintro ⟨-, -, -, got', acc', hf', hL', -, rfl⟩
          rw [(createAll_iff rd ps got' hpl).2 hf'] at hc
          cases hc
          rfl
      · rw [if_neg hacc]
        constructor
        · intro h; cases h
        · rintro ⟨-, -, -, got', acc', hf', hL', h', -⟩
          rw [(createAll_iff rd ps got' hpl).2 hf'] at hc
          cases hc
          cases hL'
          exact absurd h' hacc

theorem flat_plain {R : Type} {rd : Reals R} {name : List Char} {ps : List (List Char × Val R)}
    (h : Plain rd (.str name :: ps.flatMap (fun p => [.str p.1, p.2]))) : NoNul name ∧ (∀ p ∈ ps, NoNul p.1) ∧ Plain rd (ps.map Prod.snd) := by
  refine ⟨(h _ (by simp)).1 name rfl, fun p hp => (h (.str p.1) ?_).1 p.1 rfl, fun v hv => ?_⟩
  · simp only [List.mem_cons, List.mem_flatMap]
    exact .inr ⟨p, hp, .inl rfl⟩
  · obtain ⟨p, hp, rfl⟩ := List.mem_map.1 hv
    refine h p.2 ?_
    simp only [List.mem_cons, List.mem_flatMap]
    exact .inr ⟨p, hp, .inr (.inl rfl)⟩

theorem callerId_ne (name : List Char) (n : Nat) : callerId name n ≠ [] := by simp [callerId]

/-- **C107 (partial), what `StartPlan` does.**  For every list of arguments (of strings without zero bytes), all libraries and every serial number: either the arguments are those of a good
`StartPlan`; then exactly one plan is added, which calls that library with exactly these arguments as they arrive, and whose exit condition is the lookup `ExitPlan` of the plan's own identifier;
after that the identifier is returned, after that success.  Or the command fails, and nothing else happens. -/
theorem c107_start_partial {R : Type} (rd : Reals R) (L : Libs R) (n c : Nat) (args : List (Val R)) (hp : Plain rd args) :
    (∃ name got, Startable rd L args name got ∧ (startPlan rd L n c args).1 =
      [.addPlan ⟨callerId name (nextSerial n), some ("ExitPlan".toList, callerId name (nextSerial n)), some (name, got)⟩,
        .ret c (callerId name (nextSerial n)), .ack c true, .notify]) ∨
    ((¬ ∃ name got, Startable rd L args name got) ∧ (startPlan rd L n c args).1 = [.ack c false, .notify]) := by
  unfold startPlan
  cases hn : planName args with
  | none =>
    refine .inr ⟨?_, rfl⟩
    rintro ⟨name, got, given, rfl, -⟩
    simp [planName] at hn
  | some name =>
    obtain ⟨rest, rfl⟩ : ∃ rest, args = .str name :: rest := by
      unfold planName at hn
      split at hn
      · cases hn; exact ⟨_, rfl⟩
      · cases hn
    simp only [List.tail_cons]
    cases hps : pairs rest with
    | none =>
      refine .inr ⟨?_, rfl⟩
      rintro ⟨name', got, given, he, -, -, -, hf, -⟩
      have : pairs rest = some given := (pairs_some rest given).2 ⟨(List.cons.inj he).2, fun p hp' => by
        obtain ⟨q, -, hq⟩ := forall2_left hf p hp'
        exact arrives_known hq.2⟩
      rw [hps] at this; cases this
    | some ps =>
      obtain ⟨hr, hk⟩ := (pairs_some rest ps).1 hps
      subst hr
      obtain ⟨f1, f2, f3⟩ := flat_plain hp
      have key := parseWrapper_iff rd L (callerId name (nextSerial n)) name ps (callerId_noNul f1 _) (callerId_ne _ _) f1 f2 f3
      simp only
      cases hw : parseWrapper rd L (wrapper rd (callerId name (nextSerial n)) name ps) with
      | some p =>
        obtain ⟨g1, g2, g3, got, acc, g4, g5, g6, rfl⟩ := (key p).1 hw
        exact .inl ⟨name, got, ⟨ps, rfl, g1, g2, g3, g4, acc, g5, g6⟩, rfl⟩
      | none =>
        refine .inr ⟨?_, rfl⟩
        rintro ⟨name', got, given, he, g1, g2, g3, g4, acc, g5, g6⟩
        simp only [List.cons.injEq, Val.str.injEq] at he
        obtain ⟨rfl, he⟩ := he
        have hpg : pairs (ps.flatMap (fun p => [Val.str p.1, p.2])) = some given := (pairs_some _ given).2 ⟨he, fun p hp' => by
          obtain ⟨q, -, hq⟩ := forall2_left g4 p hp'
          exact arrives_known hq.2⟩
        rw [hps] at hpg
        cases hpg
        have := (key _).2 ⟨g1, g2, g3, got, acc, g4, g5, g6, rfl⟩
        rw [hw] at this
        cases this

/-- A real and how it is written, for the examples. -/
def exReals : Reals Unit := ⟨(), fun _ => "0".toList, fun s => if s = "0".toList then some () else none⟩

/-- The library `Foo` needs its parameter `x`. -/
def exLibs : Libs Unit := fun n => if n = "Foo".toList then some (fun l => (l.map Prod.fst).contains "x".toList) else none

/-- `StartPlan("Foo", "x", -3, "y", "hi")`. -/
theorem c107_example : (startPlan exReals exLibs 6 1 [.str "Foo".toList, .str "x".toList, .int (-3), .str "y".toList, .str "hi".toList]).1 =
    [.addPlan ⟨"Foo_7".toList, some ("ExitPlan".toList, "Foo_7".toList), some ("Foo".toList, [("x".toList, .int (-3)), ("y".toList, .str "hi".toList)])⟩,
      .ret 1 "Foo_7".toList, .ack 1 true, .notify] ∧
    (startPlan exReals exLibs 6 1 [.str "Foo".toList, .str "z".toList, .int (-3)]).1 = [.ack 1 false, .notify] ∧
    Plain exReals [.str "Foo".toList, .str "x".toList, .int (-3), .str "y".toList, .str "hi".toList] := by
  refine ⟨by decide, by decide, ?_⟩
  intro v hv
  simp only [List.mem_cons, List.not_mem_nil, or_false] at hv
  rcases hv with rfl | rfl | rfl | rfl | rfl <;> exact ⟨fun s h => by first | (injection h with h; subst h; unfold NoNul; decide) | (cases h), fun r h => by cases h⟩

/-- An array can never be passed to a plan: the attribute `Type` is written `IntegerValue`, which is not the name of a type (`Launcher.cc:136-137`). -/
theorem c107_arrays_refused {R : Type} (rd : Reals R) (L : Libs R) (n c : Nat) (args : List (Val R)) (hp : Plain rd args) (a : ArrVal R) (ha : .array a ∈ args) :
    (startPlan rd L n c args).1 = [.ack c false, .notify] := by
  rcases c107_start_partial rd L n c args hp with ⟨name, got, ⟨given, rfl, -, -, -, hf, -⟩, -⟩ | ⟨-, h⟩
  · exfalso
    simp only [List.mem_cons, List.mem_flatMap, reduceCtorEq, false_or] at ha
    obtain ⟨p, hpm, h2⟩ := ha
    obtain ⟨q, -, hq⟩ := forall2_left hf p hpm
    simp only [List.not_mem_nil, or_false] at h2
    rw [← h2] at hq
    cases hq.2
  · exact h

/-- Everything after a zero byte of the library's name is lost, also the serial number: the identifier returned is not that of the plan. -/
theorem c107_zero_byte : (startPlan exReals (fun _ => some (fun _ => true)) 6 1 [.str ['F', '\x00', 'o']]).1 =
    [.addPlan ⟨['F'], some ("ExitPlan".toList, ['F']), some (['F'], [])⟩, .ret 1 ['F', '\x00', 'o', '_', '7'], .ack 1 true, .notify] := by decide

/-! ### Identifiers -/

theorem run_append {R : Type} (rd : Reals R) (L : Libs R) (s : Sys R) (as bs : List (Act R)) : s.run rd L (as ++ bs) = (s.run rd L as).run rd L bs := by
  unfold Sys.run; rw [List.foldl_append]

theorem run_cons {R : Type} (rd : Reals R) (L : Libs R) (s : Sys R) (a : Act R) (as : List (Act R)) : s.run rd L (a :: as) = (s.step rd L a).run rd L as := rfl

/-- Is it a `StartPlan`? -/
def Act.isStart {R : Type} : Act R → Bool
  | .start _ _ => true
  | _ => false

theorem start_serial {R : Type} (rd : Reals R) (L : Libs R) (n c : Nat) (args : List (Val R)) :
    (startPlan rd L n c args).2 = nextSerial n ∨ ((startPlan rd L n c args).2 = n ∧ (startPlan rd L n c args).1 = [.ack c false, .notify]) := by
  unfold startPlan
  cases planName args <;> cases pairs args.tail <;> simp [refuse]

theorem start_ret {R : Type} (rd : Reals R) (L : Libs R) (n c : Nat) (args : List (Val R)) (id : List Char) (h : .ret c id ∈ (startPlan rd L n c args).1) :
    (startPlan rd L n c args).2 = nextSerial n ∧ ∃ name, id = callerId name (nextSerial n) := by
  unfold startPlan at h ⊢
  cases hn : planName args with
  | none => rw [hn] at h; simp [refuse] at h
  | some name =>
    cases hp : pairs args.tail with
    | none => rw [hn, hp] at h; simp [refuse] at h
    | some ps =>
      rw [hn, hp] at h
      simp only at h ⊢
      refine ⟨trivial, name, ?_⟩
      cases hw : parseWrapper rd L (wrapper rd (callerId name (nextSerial n)) name ps) with
      | none => rw [hw] at h; simp [launch, refuse] at h
      | some p => rw [hw] at h; simpa [launch] using h

theorem run_serial {R : Type} (rd : Reals R) (L : Libs R) : ∀ (as : List (Act R)) (s : Sys R), s.serial < 2 ^ 32 →
    ∃ j, j ≤ (as.filter Act.isStart).length ∧ (s.run rd L as).serial = (s.serial + j) % 2 ^ 32
  | [], s, h => ⟨0, by simp, by rw [show s.run rd L [] = s from rfl, Nat.add_zero, Nat.mod_eq_of_lt h]⟩
  | a :: as, s, h => by
    rw [run_cons]
    have keep : (s.step rd L a).serial = s.serial → ∃ j, j ≤ ((a :: as).filter Act.isStart).length ∧ ((s.step rd L a).run rd L as).serial = (s.serial + j) % 2 ^ 32 := by
      intro e
      obtain ⟨j, hj, hs⟩ := run_serial rd L as (s.step rd L a) (by rw [e]; exact h)
      refine ⟨j, ?_, by rw [hs, e]⟩
      simp only [List.filter_cons]
      split
      · simp only [List.length_cons]; omega
      · exact hj
    cases a with
    | start c args =>
      rcases start_serial rd L s.serial c args with e | ⟨e, -⟩
      · have e' : (s.step rd L (.start c args)).serial = (s.serial + 1) % 2 ^ 32 := e
        obtain ⟨j, hj, hs⟩ := run_serial rd L as (s.step rd L (.start c args)) (by rw [e']; omega)
        refine ⟨j + 1, ?_, by rw [hs, e']; omega⟩
        simp only [List.filter_cons, Act.isStart, if_true, List.length_cons]
        omega
      · exact keep e
    | exit c args => exact keep rfl
    | other k => exact keep rfl
    | process => exact keep (by simp only [Sys.step]; split <;> rfl)
    | delete i => exact keep rfl

theorem callerId_serial {a b : List Char} {m n : Nat} (h : callerId a m = callerId b n) : m = n := by
  have key : ∀ (x : List Char) (k : Nat), ((callerId x k).reverse).takeWhile (fun c => c ≠ '_') = (decimal k).reverse := by
    intro x k
    unfold callerId
    simp only [List.reverse_append, List.reverse_cons, List.append_assoc]
    rw [List.takeWhile_append_of_pos]
    · simp
    · intro c hc
      simp only [decide_eq_true_eq]
      rintro rfl
      exact Verif.Ipc.decimal_no_underscore k (List.mem_reverse.1 hc)
  have := key a m
  rw [h, key b n] at this
  exact (Verif.Ipc.decimal_inj (List.reverse_injective this)).symm

/-- **C107, the identifiers.**  Two plans started one after the other have different identifiers, whatever their names are and whatever else happens, as long as fewer than 2³² plans are started
in between. -/
theorem c107_ids {R : Type} (rd : Reals R) (L : Libs R) (s : Sys R) (c c' : Nat) (args args' : List (Val R)) (as : List (Act R)) (id id' : List Char)
    (hn : (as.filter Act.isStart).length < 2 ^ 32 - 1) (h : .ret c id ∈ (startPlan rd L s.serial c args).1)
    (h' : .ret c' id' ∈ (startPlan rd L (s.run rd L (.start c args :: as)).serial c' args').1) : id ≠ id' := by
  obtain ⟨e, name, rfl⟩ := start_ret rd L _ c args id h
  obtain ⟨-, name', rfl⟩ := start_ret rd L _ c' args' id' h'
  rw [run_cons]
  have e1 : (s.step rd L (.start c args)).serial = nextSerial s.serial := e
  obtain ⟨j, hj, hs⟩ := run_serial rd L as (s.step rd L (.start c args)) (by rw [e1]; unfold nextSerial; omega)
  rw [hs, e1]
  intro he
  have := callerId_serial he
  unfold nextSerial at this
  omega

/-- After 2³² starts the identifiers are used again. -/
theorem c107_ids_again (name : List Char) (n : Nat) : callerId name (nextSerial (n + 2 ^ 32)) = callerId name (nextSerial n) := by
  unfold nextSerial
  rw [show (n + 2 ^ 32 + 1) % 2 ^ 32 = (n + 1) % 2 ^ 32 by omega]

theorem c107_ids_example : ∃ id id', Call.ret 1 id ∈ (startPlan exReals exLibs 0 1 [.str "Foo".toList, .str "x".toList, .int 1]).1 ∧
    Call.ret 2 id' ∈ (startPlan exReals exLibs (Sys.run exReals exLibs {} [.start 1 [.str "Foo".toList, .str "x".toList, .int 1], .process, .process]).serial 2
      [.str "Foo".toList, .str "x".toList, .int 1]).1 := ⟨"Foo_1".toList, "Foo_2".toList, by decide, by decide⟩

/-! ## C108 -/

theorem findPlan_some {R : Type} (name : List Char) : ∀ (l : List (Plan R)) (p : Plan R), findPlan name l = some p ↔ l.filter (fun q => q.id = name) = [p]
  | [], p => by simp [findPlan]
  | q :: r, p => by
    rw [findPlan]
    by_cases hq : q.id = name
    · rw [if_pos hq, List.filter_cons_of_pos (by simp [hq])]
      by_cases ha : r.any (fun q => q.id = name) = true
      · rw [if_pos ha]
        obtain ⟨x, hx, hxn⟩ := List.any_eq_true.1 ha
        constructor
        · intro h; cases h
        · intro h
          simp only [List.cons.injEq, List.filter_eq_nil_iff] at h
          exact absurd hxn (h.2 x hx)
      · rw [if_neg ha]
        have : r.filter (fun q => q.id = name) = [] := by
          rw [List.filter_eq_nil_iff]
          intro x hx hxn
          exact ha (List.any_eq_true.2 ⟨x, hx, hxn⟩)
        rw [this]
        simp
    · rw [if_neg hq, List.filter_cons_of_neg (by simp [hq]), findPlan_some name r]

/-- **C108 (partial), what `ExitPlan` does.**  For all plans in the exec and every list of arguments: if the only argument is a known string and exactly one root plan has it as its identifier, then
the state `ExitPlan` of that identifier becomes true, and after that the command succeeds.  Otherwise it fails and nothing else happens. -/
theorem c108_exit_partial {R : Type} (plans : List (Plan R)) (c : Nat) (args : List (Val R)) :
    (∃ s p, args = [.str s] ∧ plans.filter (fun q => q.id = s) = [p] ∧
      exitPlan plans c args = [.value "ExitPlan".toList s (.bool true), .ack c true, .notify]) ∨
    ((¬ ∃ s p, args = [.str s] ∧ plans.filter (fun q => q.id = s) = [p]) ∧ exitPlan plans c args = [.ack c false, .notify]) := by
  by_cases h : ∃ s, args = [.str s]
  · obtain ⟨s, rfl⟩ := h
    cases hf : findPlan s plans with
    | some p => exact .inl ⟨s, p, rfl, (findPlan_some s plans p).1 hf, by simp [exitPlan, hf, exitFound]⟩
    | none =>
      refine .inr ⟨?_, by simp [exitPlan, hf, exitFound, refuse]⟩
      rintro ⟨s', p, he, hp⟩
      simp only [List.cons.injEq, Val.str.injEq, and_true] at he
      subst he
      rw [(findPlan_some s plans p).2 hp] at hf
      cases hf
  · refine .inr ⟨fun ⟨s, p, he, _⟩ => h ⟨s, he⟩, ?_⟩
    unfold exitPlan
    split
    · exact absurd ⟨_, rfl⟩ h
    · rfl

/-- The entries that a thing that happens puts in the queue. -/
def Act.puts {R : Type} (rd : Reals R) (L : Libs R) (s : Sys R) : Act R → List (Call R)
  | .start c args => (startPlan rd L s.serial c args).1
  | .exit c args => exitPlan s.plans c args
  | .other k => [k]
  | _ => []

theorem step_entries {R : Type} (rd : Reals R) (L : Libs R) (s : Sys R) (a : Act R) :
    (s.step rd L a).seen ++ (s.step rd L a).queue = s.seen ++ s.queue ++ a.puts rd L s ∧ s.seen <+: (s.step rd L a).seen := by
  cases a with
  | process =>
    simp only [Sys.step, Act.puts, List.append_nil]
    cases hq : s.queue with
    | nil => simp [hq]
    | cons k r => simp
  | _ => simp [Sys.step, Act.puts]

theorem run_entries {R : Type} (rd : Reals R) (L : Libs R) (Q : Call R → Prop) : ∀ (as : List (Act R)) (s : Sys R),
    (∀ a ∈ as, ∀ t, ∀ k ∈ a.puts rd L t, Q k) →
    ∃ new, (s.run rd L as).seen ++ (s.run rd L as).queue = s.seen ++ s.queue ++ new ∧ s.seen <+: (s.run rd L as).seen ∧ ∀ k ∈ new, Q k
  | [], s, _ => ⟨[], by simp [Sys.run], List.prefix_refl _, by simp⟩
  | a :: as, s, h => by
    obtain ⟨e1, e2⟩ := step_entries rd L s a
    obtain ⟨new, n1, n2, n3⟩ := run_entries rd L Q as (s.step rd L a) (fun b hb => h b (by simp [hb]))
    refine ⟨a.puts rd L s ++ new, ?_, e2.trans n2, ?_⟩
    · rw [run_cons, n1, e1]; simp
    · intro k hk
      rcases List.mem_append.1 hk with hk | hk
      · exact h a (by simp) s k hk
      · exact n3 k hk

theorem launch_calls {R : Type} (rd : Reals R) (L : Libs R) (n c : Nat) (args : List (Val R)) :
    (∃ p id, (startPlan rd L n c args).1 = [.addPlan p, .ret c id, .ack c true, .notify]) ∨ (startPlan rd L n c args).1 = [.ack c false, .notify] := by
  unfold startPlan
  cases planName args with
  | none => exact .inr rfl
  | some name =>
    cases pairs args.tail with
    | none => exact .inr rfl
    | some ps =>
      simp only
      cases parseWrapper rd L (wrapper rd (callerId name (nextSerial n)) name ps) with
      | none => exact .inr rfl
      | some p => exact .inl ⟨p, _, rfl⟩

theorem exit_calls {R : Type} (plans : List (Plan R)) (c : Nat) (args : List (Val R)) :
    (∃ s, args = [.str s] ∧ exitPlan plans c args = [.value "ExitPlan".toList s (.bool true), .ack c true, .notify]) ∨ exitPlan plans c args = [.ack c false, .notify] := by
  rcases c108_exit_partial plans c args with ⟨s, p, h1, -, h2⟩ | ⟨-, h⟩
  · exact .inl ⟨s, h1, h2⟩
  · exact .inr h

/-- The entry is a reply to the command. -/
def Answers {R : Type} (c : Nat) (k : Call R) : Prop := (∃ b, k = .ack c b) ∨ ∃ x, k = .ret c x

theorem puts_fresh {R : Type} (rd : Reals R) (L : Libs R) (c : Nat) (a : Act R) (h : ¬ Concerns c a) (t : Sys R) : ∀ k ∈ a.puts rd L t, ¬ Answers c k := by
  intro k hk ha
  cases a with
  | start d args =>
    have hd : d ≠ c := h
    rcases launch_calls rd L t.serial d args with ⟨p, id, e⟩ | e
    · simp only [Act.puts, e] at hk
      rcases ha with ⟨b, rfl⟩ | ⟨x, rfl⟩ <;> simp [Ne.symm hd] at hk
    · simp only [Act.puts, e] at hk
      rcases ha with ⟨b, rfl⟩ | ⟨x, rfl⟩ <;> simp [Ne.symm hd] at hk
  | exit d args =>
    have hd : d ≠ c := h
    rcases exit_calls t.plans d args with ⟨s, -, e⟩ | e
    · simp only [Act.puts, e] at hk
      rcases ha with ⟨b, rfl⟩ | ⟨x, rfl⟩ <;> simp [Ne.symm hd] at hk
    · simp only [Act.puts, e] at hk
      rcases ha with ⟨b, rfl⟩ | ⟨x, rfl⟩ <;> simp [Ne.symm hd] at hk
  | other j =>
    simp only [Act.puts, List.mem_singleton] at hk
    subst hk
    rcases ha with ⟨b, rfl⟩ | ⟨x, rfl⟩ <;> exact h rfl
  | process => simp [Act.puts] at hk
  | delete i => simp [Act.puts] at hk

/-- If what comes after a mark in the entries has been processed, then so has what comes before. -/
theorem seen_before {R : Type} {seen rest pre post : List (Call R)} {k : Call R} (h : seen ++ rest = pre ++ k :: post) {x : Call R} (hx : x ∈ seen) (hp : x ∉ pre) (hk : x ≠ k) :
    pre ++ [k] <+: seen := by
  have h1 : seen <+: pre ++ k :: post := ⟨rest, h⟩
  have h2 : pre ++ [k] <+: pre ++ k :: post := ⟨post, by simp⟩
  rcases List.prefix_or_prefix_of_prefix h1 h2 with h | h
  · exfalso
    have := h.subset hx
    simp only [List.mem_append, List.mem_singleton] at this
    exact this.elim hp hk
  · exact h

/-- The plans that were given to the exec: those that are there and those deleted since. -/
theorem plans_seen {R : Type} (rd : Reals R) (L : Libs R) : ∀ (as : List (Act R)) (s : Sys R),
    (∀ p, .addPlan p ∈ s.seen → p ∈ s.plans ∨ p ∈ s.gone) → ∀ p, .addPlan p ∈ (s.run rd L as).seen → p ∈ (s.run rd L as).plans ∨ p ∈ (s.run rd L as).gone
  | [], s, h => h
  | a :: as, s, h => by
    rw [run_cons]
    apply plans_seen rd L as
    intro p hp
    cases a with
    | start c args => exact h p hp
    | exit c args => exact h p hp
    | other k => exact h p hp
    | process =>
      simp only [Sys.step] at hp ⊢
      cases hq : s.queue with
      | nil => rw [hq] at hp; exact h p hp
      | cons k r =>
        rw [hq] at hp
        simp only [List.mem_append, List.mem_singleton] at hp
        rcases hp with hp | rfl
        · rcases h p hp with h' | h'
          · left
            cases k <;> simp [addTo, h']
          · exact .inr h'
        · left; simp [addTo]
    | delete i =>
      simp only [Sys.step] at hp ⊢
      rcases h p hp with h' | h'
      · obtain ⟨j, hj, hjp⟩ := List.mem_iff_getElem.1 h'
        by_cases e : j = i
        · subst e
          right
          simp [hj, hjp]
        · left
          rw [List.mem_eraseIdx_iff_getElem]
          exact ⟨j, hj, e, hjp⟩
      · right; simp [h']

/-- **C108, a plan whose start was successful is known.**  In every history from the beginning: if `c` is a `StartPlan` and nothing else has to do with `c`, then, once its success or its return value
has been processed, a plan with the identifier returned, which calls the library asked for and has its own `ExitPlan` as exit condition, has been given to the exec (it may have finished and been
deleted since). -/
theorem c108_known {R : Type} (rd : Reals R) (L : Libs R) (as bs : List (Act R)) (c : Nat) (args : List (Val R)) (hp : Plain rd args)
    (hc : ∀ a ∈ as ++ bs, ¬ Concerns c a) (x : Call R) (hx : x = .ack c true ∨ ∃ id, x = .ret c id)
    (hs : x ∈ (Sys.run rd L {} (as ++ .start c args :: bs)).seen) :
    ∃ name got id, Startable rd L args name got ∧ Call.ret c id ∈ (startPlan rd L (Sys.run rd L {} as).serial c args).1 ∧ (∀ id', x = .ret c id' → id' = id) ∧
      ∃ p, (p ∈ (Sys.run rd L {} (as ++ .start c args :: bs)).plans ∨ p ∈ (Sys.run rd L {} (as ++ .start c args :: bs)).gone) ∧
        p = ⟨id, some ("ExitPlan".toList, id), some (name, got)⟩ := by
  have hxa : Answers c x := by rcases hx with rfl | ⟨id, rfl⟩; exacts [.inl ⟨_, rfl⟩, .inr ⟨_, rfl⟩]
  obtain ⟨n1, a1, -, a3⟩ := run_entries rd L (fun k => ¬ Answers c k) as {} (fun a ha => puts_fresh rd L c a (hc a (by simp [ha])))
  obtain ⟨n2, b1, -, b3⟩ := run_entries rd L (fun k => ¬ Answers c k) bs ((Sys.run rd L {} as).step rd L (.start c args)) (fun a ha => puts_fresh rd L c a (hc a (by simp [ha])))
  have hrun : Sys.run rd L {} (as ++ .start c args :: bs) = Sys.run rd L ((Sys.run rd L {} as).step rd L (.start c args)) bs := by rw [run_append, run_cons]
  rw [(step_entries rd L (Sys.run rd L {} as) (.start c args)).1, a1] at b1
  simp only [List.append_nil, List.nil_append] at b1
  rw [hrun] at hs ⊢
  have hx1 : x ∉ n1 := fun h => a3 x h hxa
  have hx2 : x ∉ n2 := fun h => b3 x h hxa
  have hmem : x ∈ n1 ++ (Act.start c args).puts rd L (Sys.run rd L {} as) ++ n2 := by rw [← b1]; exact List.mem_append_left _ hs
  have hmem' : x ∈ (startPlan rd L (Sys.run rd L {} as).serial c args).1 := by
    simp only [List.mem_append] at hmem
    rcases hmem with (h | h) | h
    · exact absurd h hx1
    · exact h
    · exact absurd h hx2
  rcases c107_start_partial rd L (Sys.run rd L {} as).serial c args hp with ⟨name, got, hst, e⟩ | ⟨-, e⟩
  · refine ⟨name, got, callerId name (nextSerial (Sys.run rd L {} as).serial), hst, by rw [e]; simp, ?_, _, ?_, rfl⟩
    · rintro id' rfl
      rw [e] at hmem'
      simpa using hmem'
    · apply plans_seen rd L bs
      · intro p h
        have h' := plans_seen rd L as {} (by intro p h; cases h) p h
        exact h'
      · have hb := b1
        simp only [Act.puts, e, List.append_assoc, List.cons_append, List.nil_append] at hb
        have := seen_before hb hs hx1 (by rcases hx with rfl | ⟨id, rfl⟩ <;> simp)
        exact this.subset (by simp)
  · exfalso
    rw [e] at hmem'
    rcases hx with rfl | ⟨id, rfl⟩ <;> simp at hmem'

/-- What a publication says of a state. -/
def saysOf {R : Type} (name arg : List Char) : Call R → Option Pub
  | .value n a v => if n = name ∧ a = arg then some v else none
  | _ => none

theorem board_eq {R : Type} (ks : List (Call R)) (name arg : List Char) : board ks name arg = (ks.filterMap (saysOf name arg)).getLast? := by
  rw [List.getLast?_filterMap]
  unfold board
  congr 1

theorem puts_exit {R : Type} (rd : Reals R) (L : Libs R) (id : List Char) (a : Act R) (h : Honest a) (t : Sys R) :
    ∀ k ∈ a.puts rd L t, ∀ v, saysOf "ExitPlan".toList id k = some v →
      v = .bool true ∧ ∃ c, a = .exit c [.str id] ∧ exitPlan t.plans c [.str id] = [.value "ExitPlan".toList id (.bool true), .ack c true, .notify] := by
  intro k hk v hv
  cases a with
  | start d args =>
    exfalso
    rcases launch_calls rd L t.serial d args with ⟨p, x, e⟩ | e
    · simp only [Act.puts, e] at hk
      simp only [List.mem_cons, List.not_mem_nil, or_false] at hk
      rcases hk with rfl | rfl | rfl | rfl <;> simp [saysOf] at hv
    · simp only [Act.puts, e] at hk
      simp only [List.mem_cons, List.not_mem_nil, or_false] at hk
      rcases hk with rfl | rfl <;> simp [saysOf] at hv
  | exit d args =>
    rcases exit_calls t.plans d args with ⟨s, hs, e⟩ | e
    · subst hs
      have hk' : k ∈ exitPlan t.plans d [.str s] := hk
      rw [e] at hk'
      simp only [List.mem_cons, List.not_mem_nil, or_false] at hk'
      rcases hk' with rfl | rfl | rfl
      · simp only [saysOf, true_and] at hv
        split at hv
        · rename_i hsid
          subst hsid
          exact ⟨(Option.some.inj hv).symm, d, rfl, e⟩
        · cases hv
      · simp [saysOf] at hv
      · simp [saysOf] at hv
    · exfalso
      simp only [Act.puts, e] at hk
      simp only [List.mem_cons, List.not_mem_nil, or_false] at hk
      rcases hk with rfl | rfl <;> simp [saysOf] at hv
  | other j =>
    exfalso
    simp only [Act.puts, List.mem_singleton] at hk
    subst hk
    cases k with
    | value n a w =>
      simp only [saysOf] at hv
      split at hv
      · rename_i hn; exact h hn.1
      · cases hv
    | _ => simp [saysOf] at hv
  | process => simp [Act.puts] at hk
  | delete i => simp [Act.puts] at hk

theorem exit_origin {R : Type} (rd : Reals R) (L : Libs R) (id : List Char) : ∀ (as : List (Act R)) (s : Sys R), (∀ a ∈ as, Honest a) →
    ∀ k ∈ (s.run rd L as).seen ++ (s.run rd L as).queue, ∀ v, saysOf "ExitPlan".toList id k = some v → k ∉ s.seen ++ s.queue →
      ∃ as1 c as2, as = as1 ++ .exit c [.str id] :: as2 ∧ Call.ack c true ∈ exitPlan (s.run rd L as1).plans c [.str id]
  | [], s, _, k, hk, v, hv, hn => absurd hk hn
  | a :: as, s, h, k, hk, v, hv, hn => by
    rw [run_cons] at hk
    by_cases hin : k ∈ (s.step rd L a).seen ++ (s.step rd L a).queue
    · rw [(step_entries rd L s a).1] at hin
      rcases List.mem_append.1 hin with hin | hin
      · exact absurd hin hn
      · obtain ⟨-, c, rfl, e⟩ := puts_exit rd L id a (h a (by simp)) s k hin v hv
        exact ⟨[], c, as, rfl, by rw [show Sys.run rd L s [] = s from rfl, e]; simp⟩
    · obtain ⟨as1, c, as2, rfl, e⟩ := exit_origin rd L id as _ (fun b hb => h b (by simp [hb])) k hk v hv hin
      exact ⟨a :: as1, c, as2, rfl, e⟩

theorem getLast_all {α : Type} {P : α → Prop} : ∀ (l : List α), (∀ x ∈ l, P x) → ∀ y, l.getLast? = some y → P y := by
  intro l h y hy
  exact h y (List.mem_of_getLast? hy)

/-- **C108, the effect of `ExitPlan`.**  In every history from the beginning in which nobody else publishes `ExitPlan`, for every identifier: the state `ExitPlan` of it is unknown or true; it is
true only after a successful `ExitPlan` command for it; once true it stays true; and once the success of such a command has been processed it is true. -/
theorem c108_effect {R : Type} (rd : Reals R) (L : Libs R) (id : List Char) (as bs : List (Act R)) (ha : ∀ a ∈ as ++ bs, Honest a) :
    (board (Sys.run rd L {} as).seen "ExitPlan".toList id = none ∨ board (Sys.run rd L {} as).seen "ExitPlan".toList id = some (.bool true)) ∧
    (board (Sys.run rd L {} as).seen "ExitPlan".toList id = some (.bool true) →
      (∃ as1 c as2, as = as1 ++ .exit c [.str id] :: as2 ∧ Call.ack c true ∈ exitPlan (Sys.run rd L {} as1).plans c [.str id]) ∧
      board (Sys.run rd L {} (as ++ bs)).seen "ExitPlan".toList id = some (.bool true)) ∧
    ∀ c, (∀ a ∈ as ++ bs, ¬ Concerns c a) → Call.ack c true ∈ (Sys.run rd L {} (as ++ .exit c [.str id] :: bs)).seen →
      board (Sys.run rd L {} (as ++ .exit c [.str id] :: bs)).seen "ExitPlan".toList id = some (.bool true) := by
  have all_true : ∀ (cs : List (Act R)), (∀ a ∈ cs, Honest a) → ∀ k ∈ (Sys.run rd L {} cs).seen, ∀ v, saysOf "ExitPlan".toList id k = some v → v = .bool true := by
    intro cs hcs k hk v hv
    obtain ⟨new, e1, -, e3⟩ := run_entries rd L (fun k => ∀ v, saysOf "ExitPlan".toList id k = some v → v = .bool true) cs {}
      (fun a h t k hk v hv => (puts_exit rd L id a (hcs a h) t k hk v hv).1)
    refine e3 k ?_ v hv
    have : k ∈ (Sys.run rd L {} cs).seen ++ (Sys.run rd L {} cs).queue := List.mem_append_left _ hk
    rw [e1] at this
    simpa using this
  have two : ∀ (cs : List (Act R)), (∀ a ∈ cs, Honest a) →
      board (Sys.run rd L {} cs).seen "ExitPlan".toList id = none ∨ board (Sys.run rd L {} cs).seen "ExitPlan".toList id = some (.bool true) := by
    intro cs hcs
    rw [board_eq]
    cases hl : ((Sys.run rd L {} cs).seen.filterMap (saysOf "ExitPlan".toList id)).getLast? with
    | none => exact .inl rfl
    | some v =>
      right
      obtain ⟨k, hk, hv⟩ := List.mem_filterMap.1 (List.mem_of_getLast? hl)
      rw [all_true cs hcs k hk v hv]
  have mem_true : ∀ (cs : List (Act R)), (∀ a ∈ cs, Honest a) → ∀ k ∈ (Sys.run rd L {} cs).seen, ∀ v, saysOf "ExitPlan".toList id k = some v →
      board (Sys.run rd L {} cs).seen "ExitPlan".toList id = some (.bool true) := by
    intro cs hcs k hk v hv
    rcases two cs hcs with h | h
    · exfalso
      rw [board_eq, List.getLast?_eq_none_iff] at h
      have : v ∈ (Sys.run rd L {} cs).seen.filterMap (saysOf "ExitPlan".toList id) := List.mem_filterMap.2 ⟨k, hk, hv⟩
      rw [h] at this
      cases this
    · exact h
  have has : ∀ a ∈ as, Honest a := fun a h => ha a (by simp [h])
  refine ⟨two as has, fun ht => ?_, fun c hc hack => ?_⟩
  · rw [board_eq] at ht
    obtain ⟨k, hk, hv⟩ := List.mem_filterMap.1 (List.mem_of_getLast? ht)
    refine ⟨exit_origin rd L id as {} has k (List.mem_append_left _ hk) _ hv (by simp), ?_⟩
    refine mem_true (as ++ bs) ha k ?_ _ hv
    rw [run_append]
    obtain ⟨-, -, e2, -⟩ := run_entries rd L (fun _ => True) bs (Sys.run rd L {} as) (fun _ _ _ _ _ => trivial)
    exact e2.subset hk
  · obtain ⟨n1, a1, -, a3⟩ := run_entries rd L (fun k => ¬ Answers c k) as {} (fun a ha => puts_fresh rd L c a (hc a (by simp [ha])))
    obtain ⟨n2, b1, -, b3⟩ := run_entries rd L (fun k => ¬ Answers c k) bs ((Sys.run rd L {} as).step rd L (.exit c [.str id])) (fun a ha => puts_fresh rd L c a (hc a (by simp [ha])))
    have hrun : Sys.run rd L {} (as ++ .exit c [.str id] :: bs) = Sys.run rd L ((Sys.run rd L {} as).step rd L (.exit c [.str id])) bs := by rw [run_append, run_cons]
    rw [(step_entries rd L (Sys.run rd L {} as) (.exit c [.str id])).1, a1] at b1
    simp only [List.append_nil, List.nil_append] at b1
    have hx1 : Call.ack c true ∉ n1 := fun h => a3 _ h (.inl ⟨_, rfl⟩)
    have hx2 : Call.ack c true ∉ n2 := fun h => b3 _ h (.inl ⟨_, rfl⟩)
    have hseen := hack
    rw [hrun] at hseen
    have hmem : Call.ack c true ∈ n1 ++ (Act.exit c [.str id]).puts rd L (Sys.run rd L {} as) ++ n2 := by rw [← b1]; exact List.mem_append_left _ hseen
    have hmem' : Call.ack c true ∈ exitPlan (Sys.run rd L {} as).plans c [.str id] := by
      simp only [List.mem_append] at hmem
      rcases hmem with (h | h) | h
      · exact absurd h hx1
      · exact h
      · exact absurd h hx2
    rcases exit_calls (Sys.run rd L {} as).plans c [.str id] with ⟨s, hs, e⟩ | e
    · simp only [List.cons.injEq, Val.str.injEq, and_true] at hs
      subst hs
      have hb := b1
      simp only [Act.puts, e, List.append_assoc, List.cons_append, List.nil_append] at hb
      have := seen_before hb hseen hx1 (by simp)
      refine mem_true _ ?_ (.value "ExitPlan".toList id (.bool true)) ?_ (.bool true) (by simp [saysOf])
      · intro a h
        simp only [List.mem_append, List.mem_cons] at h
        rcases h with h | rfl | h
        · exact ha a (by simp [h])
        · trivial
        · exact ha a (by simp [h])
      · rw [hrun]
        exact this.subset (by simp)
    · rw [e] at hmem'
      simp at hmem'

/-- A plan is started, its identifier goes through, `ExitPlan` is called, and the exit condition of the plan is true. -/
theorem c108_example :
    let s := Sys.run exReals exLibs {} [.start 1 [.str "Foo".toList, .str "x".toList, .int 1], .process, .process, .process, .process, .exit 2 [.str "Foo_1".toList], .process, .process]
    Call.ack 1 true ∈ s.seen ∧ Call.ack 2 true ∈ s.seen ∧ s.plans.map (fun p => (p.id, p.exit)) = [("Foo_1".toList, some ("ExitPlan".toList, "Foo_1".toList))] ∧
      board s.seen "ExitPlan".toList "Foo_1".toList = some (.bool true) := by decide

/-- A root plan that the launcher did not start: `ExitPlan` succeeds, but no exit condition refers to it. -/
theorem c108_not_started : exitPlan [({ id := "Main".toList } : Plan Unit)] 1 [.str "Main".toList] =
      [.value "ExitPlan".toList "Main".toList (.bool true), .ack 1 true, .notify] ∧ ({ id := "Main".toList } : Plan Unit).exit = none := by decide

/-- Another root plan that happens to be called `Foo_1` makes the plan started impossible to exit. -/
theorem c108_ambiguous : exitPlan [({ id := "Foo_1".toList } : Plan Unit), { id := "Foo_1".toList, exit := some ("ExitPlan".toList, "Foo_1".toList) }] 1 [.str "Foo_1".toList] =
    [.ack 1 false, .notify] := by decide

/-! ## C109 -/

theorem listen_says {R N : Type} (info : N → Info) (ts : List (N × NState)) (name id : List Char) :
    (listen (R := R) info ts).filterMap (saysOf name id) = ts.flatMap (fun t => (publish (R := R) (info t.1) t.2).filterMap (saysOf name id)) := by
  unfold listen
  rw [List.filterMap_append, List.filterMap_flatMap]
  split <;> simp [saysOf]

theorem publish_says {R : Type} (a b c : List Char) (hab : a ≠ b) (hac : a ≠ c) (hbc : b ≠ c) (x y z : Pub) (no : Prop) [Decidable no] (nf : Prop) [Decidable nf] (i id : List Char) :
    (Call.value a i x :: (if no then [] else Call.value b i y :: (if nf then [] else [Call.value (R := R) c i z]))).filterMap (saysOf a id) = (if i = id then [x] else []) ∧
    (Call.value a i x :: (if no then [] else Call.value b i y :: (if nf then [] else [Call.value (R := R) c i z]))).filterMap (saysOf b id) =
      (if i = id ∧ ¬ no then [y] else []) ∧
    (Call.value a i x :: (if no then [] else Call.value b i y :: (if nf then [] else [Call.value (R := R) c i z]))).filterMap (saysOf c id) =
      (if i = id ∧ ¬ no ∧ ¬ nf then [z] else []) := by
  by_cases h1 : no <;> by_cases h2 : nf <;> by_cases h3 : i = id <;> simp [h1, h2, h3, saysOf, hab, hac, hbc, hab.symm, hac.symm, hbc.symm]

theorem publish_state {R : Type} (i : Info) (new : NState) (id : List Char) :
    (publish (R := R) i new).filterMap (saysOf "PlanState".toList id) = (if i.root = true ∧ i.id = id then [.text (stateName new)] else []) ∧
    (publish (R := R) i new).filterMap (saysOf "PlanOutcome".toList id) = (if i.root = true ∧ i.id = id ∧ i.outcome ≠ .none then [.text (outcomeName i.outcome)] else []) ∧
    (publish (R := R) i new).filterMap (saysOf "PlanFailureType".toList id) =
      (if i.root = true ∧ i.id = id ∧ i.outcome ≠ .none ∧ i.failure ≠ .none then [.text (failureName i.failure)] else []) := by
  have key := publish_says (R := R) "PlanState".toList "PlanOutcome".toList "PlanFailureType".toList (by decide) (by decide) (by decide)
    (.text (stateName new)) (.text (outcomeName i.outcome)) (.text (failureName i.failure)) (i.outcome = .none) (i.failure = .none) i.id id
  unfold publish
  generalize "PlanState".toList = a at *
  generalize "PlanOutcome".toList = b at *
  generalize "PlanFailureType".toList = c at *
  by_cases hr : i.root = false
  · simp [hr]
  · have hr' : i.root = true := by simpa using hr
    rw [if_neg hr, key.1, key.2.1, key.2.2]
    simp [hr']

theorem flatMap_map_filter {α β : Type} (l : List α) (p : α → Bool) (f : α → β) : l.flatMap (fun a => if p a = true then [f a] else []) = (l.filter p).map f := by
  induction l with
  | nil => rfl
  | cons a l ih =>
    rw [List.flatMap_cons, ih, List.filter_cons]
    split <;> simp

/-- **C109, `PlanState`.**  After every history of cycles, for every identifier: the value of `PlanState` is the name of the state which the last transition of a root node of that name led to;
without such a transition there is none. -/
theorem c109_state {R N : Type} (h : List ((N → Info) × List (N × NState))) (id : List Char) :
    board (listenAll (R := R) h) "PlanState".toList id = (rootStates h id).getLast?.map (fun x => .text (stateName x)) := by
  rw [board_eq, ← List.getLast?_map]
  congr 1
  unfold listenAll rootStates
  rw [List.filterMap_flatMap, List.map_flatMap]
  congr 1
  funext b
  rw [listen_says]
  simp only [(publish_state _ _ id).1]
  rw [List.map_map, ← flatMap_map_filter]
  congr 1
  funext t
  simp

theorem listenAll_snoc {R N : Type} (h : List ((N → Info) × List (N × NState))) (b : (N → Info) × List (N × NState)) (name id : List Char) :
    (listenAll (R := R) (h ++ [b])).filterMap (saysOf name id) =
      (listenAll (R := R) h).filterMap (saysOf name id) ++ b.2.flatMap (fun t => (publish (R := R) (b.1 t.1) t.2).filterMap (saysOf name id)) := by
  unfold listenAll
  rw [List.flatMap_append, List.filterMap_append]
  congr 1
  simp only [List.flatMap_cons, List.flatMap_nil, List.append_nil]
  exact listen_says b.1 b.2 name id

open Classical in
/-- Repetitions of one value for each transition of a node. -/
theorem flatMap_node {N β : Type} (n : N) (ts : List (N × NState)) (f : N × NState → List β) (v : β) (yes : Prop) [Decidable yes]
    (h1 : ∀ t ∈ ts, t.1 = n → f t = if yes then [v] else []) (h2 : ∀ t ∈ ts, t.1 ≠ n → f t = []) (l : List β) :
    (l ++ ts.flatMap f).getLast? = if yes ∧ n ∈ ts.map Prod.fst then some v else l.getLast? := by
  by_cases hy : yes
  · by_cases hn : n ∈ ts.map Prod.fst
    · rw [if_pos ⟨hy, hn⟩]
      have all : ∀ x ∈ ts.flatMap f, x = v := by
        intro x hx
        obtain ⟨t, ht, hxt⟩ := List.mem_flatMap.1 hx
        by_cases e : t.1 = n
        · rw [h1 t ht e, if_pos hy] at hxt; simpa using hxt
        · rw [h2 t ht e] at hxt; cases hxt
      obtain ⟨t, ht, hte⟩ := List.mem_map.1 hn
      have hv : v ∈ ts.flatMap f := List.mem_flatMap.2 ⟨t, ht, by rw [h1 t ht hte, if_pos hy]; simp⟩
      rw [List.getLast?_append_of_ne_nil _ (List.ne_nil_of_mem hv)]
      cases hl : (ts.flatMap f).getLast? with
      | none => rw [List.getLast?_eq_none_iff] at hl; rw [hl] at hv; cases hv
      | some w => rw [all w (List.mem_of_getLast? hl)]
    · rw [if_neg (fun h => hn h.2)]
      have : ts.flatMap f = [] := by
        rw [List.flatMap_eq_nil_iff]
        intro t ht
        exact h2 t ht (fun e => hn (List.mem_map.2 ⟨t, ht, e⟩))
      rw [this, List.append_nil]
  · rw [if_neg (fun h => hy h.1)]
    have : ts.flatMap f = [] := by
      rw [List.flatMap_eq_nil_iff]
      intro t ht
      by_cases e : t.1 = n
      · rw [h1 t ht e, if_neg hy]
      · exact h2 t ht e
    rw [this, List.append_nil]

theorem after_snoc {N : Type} (n : N) (h : List ((N → Info) × List (N × NState))) (b : (N → Info) × List (N × NState)) :
    after n (h ++ [b]) = ((b.1 n).outcome, (b.1 n).failure) := by
  simp [after]

theorem once_board {R N : Type} (n : N) (id P F : List Char)
    (hP : ∀ (i : Info) (new : NState), (publish (R := R) i new).filterMap (saysOf P id) = (if i.root = true ∧ i.id = id ∧ i.outcome ≠ .none then [.text (outcomeName i.outcome)] else []))
    (hF : ∀ (i : Info) (new : NState), (publish (R := R) i new).filterMap (saysOf F id) =
      (if i.root = true ∧ i.id = id ∧ i.outcome ≠ .none ∧ i.failure ≠ .none then [.text (failureName i.failure)] else [])) : ∀ (k : Nat) (h : List ((N → Info) × List (N × NState))), h.length = k → Once n id h →
    ((listenAll (R := R) h).filterMap (saysOf P id)).getLast? = (if (after n h).1 = .none then none else some (.text (outcomeName (after n h).1))) ∧
    ((listenAll (R := R) h).filterMap (saysOf F id)).getLast? = (if (after n h).2 = .none then none else some (.text (failureName (after n h).2))) ∧
    ((after n h).1 = .none → (after n h).2 = .none)
  | 0, h, hl, _ => by
    have : h = [] := List.length_eq_zero_iff.1 hl
    subst this
    simp [listenAll, after]
  | k + 1, h, hl, ho => by
    obtain ⟨pre, b, rfl⟩ : ∃ pre b, h = pre ++ [b] := by
      refine ⟨h.dropLast, h.getLast (by intro e; rw [e] at hl; simp at hl), (List.dropLast_append_getLast _).symm⟩
    have hpre : Once n id pre := ⟨fun b' hb => ho.is b' (by simp [hb]), fun b' hb => ho.alone b' (by simp [hb]),
      fun p b' q e hh => ho.steady p b' (q ++ [b]) (by rw [e]; simp) hh, fun b' hb => ho.failed b' (by simp [hb])⟩
    obtain ⟨i1, i2, i3⟩ := once_board (R := R) n id P F hP hF k pre (by simp at hl; omega) hpre
    have hb := ho.is b (by simp)
    have hal := ho.alone b (by simp)
    have hst := ho.steady pre b [] (by simp)
    have hfail := ho.failed b (by simp)
    have away : ∀ t ∈ b.2, t.1 ≠ n → ¬ ((b.1 t.1).root = true ∧ (b.1 t.1).id = id) := fun t _ ht h => ht (hal t.1 h.1 h.2)
    have f1 := flatMap_node n b.2 (fun t => (publish (R := R) (b.1 t.1) t.2).filterMap (saysOf P id)) (.text (outcomeName (b.1 n).outcome))
      ((b.1 n).outcome ≠ .none)
      (fun t _ e => by
        simp only [hP, e, hb.1, hb.2, true_and])
      (fun t ht e => by
        simp only [hP]
        rw [if_neg (fun h => away t ht e ⟨h.1, h.2.1⟩)])
      ((listenAll (R := R) pre).filterMap (saysOf P id))
    have f2 := flatMap_node n b.2 (fun t => (publish (R := R) (b.1 t.1) t.2).filterMap (saysOf F id)) (.text (failureName (b.1 n).failure))
      ((b.1 n).outcome ≠ .none ∧ (b.1 n).failure ≠ .none)
      (fun t _ e => by
        simp only [hF, e, hb.1, hb.2, true_and])
      (fun t ht e => by
        simp only [hF]
        rw [if_neg (fun h => away t ht e ⟨h.1, h.2.1⟩)])
      ((listenAll (R := R) pre).filterMap (saysOf F id))
    rw [listenAll_snoc, listenAll_snoc, f1, f2, i1, i2, after_snoc]
    rw [after_snoc] at hst
    generalize hA : after n pre = A at *
    generalize hO : (b.1 n).outcome = o at *
    generalize hFf : (b.1 n).failure = f at *
    by_cases hn : n ∈ b.2.map Prod.fst
    · by_cases ho' : o = .none
      · have hA0 : A.1 = .none := by
          by_contra hne
          have e := hst (.inl hne)
          rw [← e] at hne
          exact hne ho'
        have := i3 hA0
        simp [ho', hA0, this, hfail ho']
      · by_cases hf' : f = .none
        · have hA1 : A.2 = .none := by
            by_cases hA0 : A.1 = .none
            · exact i3 hA0
            · rw [← hst (.inl hA0)]; exact hf'
          simp [ho', hf', hn, hA1]
        · simp [ho', hf', hn]
    · have e := hst (.inr hn)
      subst e
      simp only [hn, and_false, if_false]
      exact ⟨trivial, trivial, i3⟩

/-- **C109, `PlanOutcome` and `PlanFailureType` of a plan that runs once.**  At the end of every cycle of every history, `PlanOutcome` of its identifier is its outcome if it has one, else there is
none; likewise `PlanFailureType`. -/
theorem c109_outcome_partial {R N : Type} (n : N) (id : List Char) (h : List ((N → Info) × List (N × NState))) (ho : Once n id h) :
    board (listenAll (R := R) h) "PlanOutcome".toList id = (if (after n h).1 = .none then none else some (.text (outcomeName (after n h).1))) ∧
    board (listenAll (R := R) h) "PlanFailureType".toList id = (if (after n h).2 = .none then none else some (.text (failureName (after n h).2))) := by
  obtain ⟨h1, h2, -⟩ := once_board (R := R) n id "PlanOutcome".toList "PlanFailureType".toList (fun i new => (publish_state i new id).2.1)
    (fun i new => (publish_state i new id).2.2) h.length h rfl ho
  rw [board_eq, board_eq]
  exact ⟨h1, h2⟩

/-- The nodes of the examples: node 0 is the root plan `P`, others are its children. -/
def exInfo (o : Outcome) (f : Failure) : Nat → Info := fun n => if n = 0 then ⟨true, ['P'], o, f⟩ else ⟨false, ['P'], .none, .none⟩

/-- A plan that fails in its third cycle. -/
theorem c109_example :
    let h : List ((Nat → Info) × List (Nat × NState)) := [(exInfo .none .none, [(0, .waiting)]), (exInfo .none .none, [(1, .waiting)]),
      (exInfo .failure .pre, [(0, .iterationEnded), (1, .inactive), (0, .finished)])]
    board (listenAll (R := Unit) h) "PlanState".toList ['P'] = some (.text "FINISHED") ∧ board (listenAll (R := Unit) h) "PlanOutcome".toList ['P'] = some (.text "FAILURE") ∧
      board (listenAll (R := Unit) h) "PlanFailureType".toList ['P'] = some (.text "PRE_CONDITION_FAILED") := by decide

/-- That plan runs once. -/
theorem c109_once_example : Once 0 ['P'] ([(exInfo .none .none, [(0, .waiting)]), (exInfo .none .none, [(1, .waiting)]),
      (exInfo .failure .pre, [(0, .iterationEnded), (1, .inactive), (0, .finished)])] : List ((Nat → Info) × List (Nat × NState))) := by
  refine ⟨?_, ?_, ?_, ?_⟩
  · intro b hb
    simp only [List.mem_cons, List.not_mem_nil, or_false] at hb
    rcases hb with rfl | rfl | rfl <;> exact ⟨rfl, rfl⟩
  · intro b hb m hm _
    by_contra hne
    simp only [List.mem_cons, List.not_mem_nil, or_false] at hb
    rcases hb with rfl | rfl | rfl <;> simp [exInfo, hne] at hm
  · intro pre b post e hh
    rcases pre with _ | ⟨p1, _ | ⟨p2, _ | ⟨p3, pre⟩⟩⟩
    · simp only [List.nil_append, List.cons.injEq] at e
      obtain ⟨rfl, -⟩ := e
      rfl
    · simp only [List.cons_append, List.nil_append, List.cons.injEq] at e
      obtain ⟨rfl, rfl, -⟩ := e
      rfl
    · simp only [List.cons_append, List.nil_append, List.cons.injEq] at e
      obtain ⟨rfl, rfl, rfl, -⟩ := e
      exfalso
      revert hh
      decide
    · simp at e
  · intro b hb h0
    simp only [List.mem_cons, List.not_mem_nil, or_false] at hb
    rcases hb with rfl | rfl | rfl
    · rfl
    · rfl
    · simp [exInfo] at h0

/-- A plan that repeats: the failure type of an earlier iteration is still there when the plan has succeeded; and the outcome of an iteration that ends and begins again in one cycle is never
published (`Launcher.cc:97-112` asks the node, at the end of the cycle). -/
theorem c109_stale :
    let h : List ((Nat → Info) × List (Nat × NState)) := [(exInfo .failure .pre, [(0, .iterationEnded)]), (exInfo .none .none, [(0, .waiting)]),
      (exInfo .success .none, [(0, .iterationEnded), (0, .finished)])]
    let h' : List ((Nat → Info) × List (Nat × NState)) := [(exInfo .none .none, [(0, .executing)]), (exInfo .none .none, [(0, .iterationEnded), (0, .waiting)])]
    board (listenAll (R := Unit) h) "PlanOutcome".toList ['P'] = some (.text "SUCCESS") ∧ board (listenAll (R := Unit) h) "PlanFailureType".toList ['P'] = some (.text "PRE_CONDITION_FAILED") ∧
      board (listenAll (R := Unit) h') "PlanOutcome".toList ['P'] = none := by decide

end Verif.Launcher
