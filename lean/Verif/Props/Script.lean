import Verif.Script.Lemmas
import Verif.Epx.Example
/-
C126, C127: TestExec.
-/
set_option autoImplicit false
set_option linter.unusedSimpArgs false
set_option linter.unusedSectionVars false
namespace Verif.Script
open Verif.Text (Handle)

variable {σ V C U P : Type} [DecidableEq V] {M : Machine σ V C U P} {text : State V → V} {zero : V} {initial : List (Item V P)} {script : List (Elem V P)} {r : Run σ V C U P}
  {pre post : List (Obs V C U P)}

theorem read_cases (h : Runs M text zero initial script r) {i} (ht : r.trace = pre ++ .read i :: post) :
    ∃ t, Known zero pre t ∧ ((t.handle i = none ∧ post = [] ∧ r.mode = .failed) ∨
      ∃ t' ds p post', t.handle i = some (t', ds, p) ∧ post = ds.map .tell ++ p.toList.map .add ++ post') := by
  obtain ⟨f, hf, hg⟩ := h.gen
  obtain ⟨t0, g1, g2⟩ := hg.at_read ht
  refine ⟨t0, g1.known rfl, ?_⟩
  rcases g2 with ⟨g2, g3, g4⟩ | g2
  · exact .inl ⟨g2, g3, hf.1 g4⟩
  · exact .inr g2

/-! ## C126: who is told what -/

/-- C126: a CommandAck of the script is told to the command sent last with that name and these parameters; if none was ever sent, the run ends there. -/
theorem c126_ack (h : Runs M text zero initial script r) {st : State V} {hd : Handle} (ht : r.trace = pre ++ .read (.ack st hd) :: post) :
    (∀ c, latest (sends st) pre = some c → ∃ post', post = .tell (.handle c hd) :: post') ∧ (latest (sends st) pre = none → post = [] ∧ r.mode = .failed) := by
  obtain ⟨t, k, ⟨g1, g2, g3⟩ | ⟨t', ds, p, post', g1, g2⟩⟩ := read_cases h ht
  · simp only [Tables.handle] at g1
    split at g1
    · rename_i e; rw [k.acks] at e; exact ⟨fun c hc => (by rw [e] at hc; cases hc), fun _ => ⟨g2, g3⟩⟩
    · cases g1
  · simp only [Tables.handle] at g1
    split at g1
    · cases g1
    · rename_i c e; rw [k.acks] at e
      cases g1
      exact ⟨fun c' hc => (by rw [e] at hc; cases hc; exact ⟨post', by simpa using g2⟩), fun hn => (by rw [e] at hn; cases hn)⟩

/-- C126: a result in the script is told to the command sent last with that name and these parameters, of those that expect a result; if there is none, or it got one already, the run ends there. -/
theorem c126_result (h : Runs M text zero initial script r) {st : State V} {v : Option V} (ht : r.trace = pre ++ .read (.result st v) :: post) :
    (∀ c, latest (expects st) pre = some (some c) → ∃ post', post = .tell (.result c v) :: post') ∧
    ((latest (expects st) pre).join = none → post = [] ∧ r.mode = .failed) := by
  obtain ⟨t, k, ⟨g1, g2, g3⟩ | ⟨t', ds, p, post', g1, g2⟩⟩ := read_cases h ht
  · simp only [Tables.handle] at g1
    split at g1
    · rename_i e; rw [k.executing] at e; exact ⟨fun c hc => (by rw [hc] at e; cases e), fun _ => ⟨g2, g3⟩⟩
    · cases g1
  · simp only [Tables.handle] at g1
    split at g1
    · cases g1
    · rename_i c e; rw [k.executing] at e
      cases g1
      exact ⟨fun c' hc => (by rw [hc] at e; cases e; exact ⟨post', by simpa using g2⟩), fun hn => (by rw [e] at hn; cases hn)⟩

/-- C126: a CommandAbort of the script is told to the command of that name and parameters whose abort was asked for last, if it was not acknowledged yet; otherwise, or if the value is not Boolean or
unknown, the run ends there. -/
theorem c126_abort (h : Runs M text zero initial script r) {st : State V} {b : Option Bool} (ht : r.trace = pre ++ .read (.abortAck st b) :: post) :
    (∀ c v, latest (aborts st) pre = some (some c) → b = some v → ∃ post', post = .tell (.abortAck c v) :: post') ∧
    ((latest (aborts st) pre).join = none ∨ b = none → post = [] ∧ r.mode = .failed) := by
  obtain ⟨t, k, g⟩ := read_cases h ht
  cases b with
  | none =>
    rcases g with ⟨g1, g2, g3⟩ | ⟨t', ds, p, post', g1, g2⟩
    · exact ⟨fun _ _ _ hb => (by cases hb), fun _ => ⟨g2, g3⟩⟩
    · cases g1
  | some b =>
    rcases g with ⟨g1, g2, g3⟩ | ⟨t', ds, p, post', g1, g2⟩
    · simp only [Tables.handle] at g1
      split at g1
      · rename_i e; rw [k.aborting] at e; exact ⟨fun c _ hc _ => (by rw [hc] at e; cases e), fun _ => ⟨g2, g3⟩⟩
      · cases g1
    · simp only [Tables.handle] at g1
      split at g1
      · cases g1
      · rename_i c e; rw [k.aborting] at e
        cases g1
        exact ⟨fun c' v hc hb => (by rw [hc] at e; cases e; cases hb; exact ⟨post', by simpa using g2⟩), fun hn => (by rcases hn with hn | hn <;> [(rw [e] at hn; cases hn); cases hn])⟩

/-- C126: an UpdateAck of the script is told to the update of that node that waits for it, the first since the last UpdateAck; if there is none the run ends there. -/
theorem c126_update (h : Runs M text zero initial script r) {n : String} (ht : r.trace = pre ++ .read (.updateAck n) :: post) :
    (∀ u, waiting n pre = some u → ∃ post', post = .tell (.updateAck u) :: post') ∧ (waiting n pre = none → post = [] ∧ r.mode = .failed) := by
  obtain ⟨t, k, ⟨g1, g2, g3⟩ | ⟨t', ds, p, post', g1, g2⟩⟩ := read_cases h ht
  · simp only [Tables.handle] at g1
    split at g1
    · rename_i e; rw [k.updates] at e; exact ⟨fun c hc => (by rw [e] at hc; cases hc), fun _ => ⟨g2, g3⟩⟩
    · cases g1
  · simp only [Tables.handle] at g1
    split at g1
    · cases g1
    · rename_i c e; rw [k.updates] at e
      cases g1
      exact ⟨fun c' hc => (by rw [e] at hc; cases hc; exact ⟨post', by simpa using g2⟩), fun hn => (by rw [e] at hn; cases hn)⟩

/-- C126: a value the script gives a state is told to the executive; and when the executive asks for the value of a state, it is told the last one the script gave it; without one, that the time is 0, and
that anything else is unknown. -/
theorem c126_value (h : Runs M text zero initial script r) {st : State V} :
    (∀ v, r.trace = pre ++ .read (.value st v) :: post → ∃ post', post = .tell (.value st v) :: post') ∧
    (r.trace = pre ++ .ask (.lookup st) :: post → ∃ post', post = .tell (.value st (valueOf zero st pre)) :: post') := by
  refine ⟨fun v ht => ?_, fun ht => ?_⟩
  · obtain ⟨t, k, ⟨g1, g2, g3⟩ | ⟨t', ds, p, post', g1, g2⟩⟩ := read_cases h ht
    · cases g1
    · cases g1; exact ⟨post', by simpa using g2⟩
  · obtain ⟨f, hf, hg⟩ := h.gen
    obtain ⟨t0, post', g1, g2⟩ := hg.at_ask ht
    refine ⟨post', ?_⟩
    have k := g1.known rfl
    simp only [Tables.asked] at g2
    rw [← k.states st]
    split at g2 <;> rename_i e <;> simpa [e] using g2

/-- C126: a command that was denied its resources is told so at once, a command TestExec performs itself is told that it succeeded at once, and anything else the executive sends is told nothing then. -/
theorem c126_at_once (h : Runs M text zero initial script r) :
    (∀ c, r.trace = pre ++ .ask (.deny c) :: post → ∃ post', post = .tell (.handle c .denied) :: post') ∧
    (∀ c st ret, r.trace = pre ++ .ask (.execute c st ret) :: post →
      (st.name ∈ ["print", "pprint"] → ∃ post', post = .tell (.handle c .success) :: post') ∧
      (st.name ∈ ["printToString", "pprintToString"] → ∃ post', post = .tell (.result c (some (text st))) :: .tell (.handle c .success) :: post')) := by
  obtain ⟨f, hf, hg⟩ := h.gen
  refine ⟨fun c ht => ?_, fun c st ret ht => ?_⟩
  · obtain ⟨t0, post', g1, g2⟩ := hg.at_ask ht
    exact ⟨post', g2⟩
  · obtain ⟨t0, post', g1, g2⟩ := hg.at_ask ht
    simp only [Tables.asked] at g2
    refine ⟨fun hn => ⟨post', ?_⟩, fun hn => ⟨post', ?_⟩⟩
    · have : builtin st = some .print := by
        simp only [List.mem_cons, List.not_mem_nil, or_false] at hn
        simp [builtin, hn]
      rw [this] at g2; exact g2
    · have : builtin st = some .toString := by
        simp only [List.mem_cons, List.not_mem_nil, or_false] at hn
        have h1 : ¬ (st.name = "print" ∨ st.name = "pprint") := by rcases hn with h | h <;> rw [h] <;> decide
        unfold builtin; rw [if_neg h1, if_pos hn]
      rw [this] at g2; exact g2

/-- C126: nothing is told to the executive without a reason. A command gets a handle only from a CommandAck for its name and parameters while it is the last one sent with them, or because it was denied, or
because TestExec performs it itself; a result only from a Command of the script, or from `printToString`; an acknowledgement of its abort only from a CommandAbort; an update only from an
UpdateAck; a value only from the script, or as an answer. -/
theorem c126_reason (h : Runs M text zero initial script r) {x : Tell V C U} (ht : r.trace = pre ++ .tell x :: post) :
    ∃ pre0, match x with
    | .value st v => pre = pre0 ++ [.read (.value st v)] ∨ (pre = pre0 ++ [.ask (.lookup st)] ∧ v = valueOf zero st pre0)
    | .handle c hd => (∃ st, pre = pre0 ++ [.read (.ack st hd)] ∧ latest (sends st) pre0 = some c) ∨ (pre = pre0 ++ [.ask (.deny c)] ∧ hd = .denied) ∨
        (hd = .success ∧ ∃ st ret, (pre = pre0 ++ [.ask (.execute c st ret)] ∧ st.name ∈ ["print", "pprint"]) ∨
          (pre = pre0 ++ [.ask (.execute c st ret), .tell (.result c (some (text st)))] ∧ st.name ∈ ["printToString", "pprintToString"]))
    | .result c v => (∃ st, pre = pre0 ++ [.read (.result st v)] ∧ latest (expects st) pre0 = some (some c)) ∨
        ∃ st ret, pre = pre0 ++ [.ask (.execute c st ret)] ∧ v = some (text st) ∧ st.name ∈ ["printToString", "pprintToString"]
    | .abortAck c b => ∃ st, pre = pre0 ++ [.read (.abortAck st (some b))] ∧ latest (aborts st) pre0 = some (some c)
    | .updateAck u => ∃ n, pre = pre0 ++ [.read (.updateAck n)] ∧ waiting n pre0 = some u := by
  obtain ⟨f, hf, hg⟩ := h.gen
  obtain ⟨pre0, t0, d1, d2, g1, g2⟩ := hg.at_tell ht
  have k := g1.known rfl
  refine ⟨pre0, ?_⟩
  rcases g2 with ⟨i, t', p, rfl, g⟩ | ⟨a, rfl, g⟩
  · cases i with
    | value st v =>
      simp only [Tables.handle, Option.some.injEq, Prod.mk.injEq] at g
      obtain ⟨_, g, _⟩ := g
      cases d1 with
      | nil => cases g; exact .inl rfl
      | cons z d1 => simp at g
    | result st v =>
      simp only [Tables.handle] at g
      split at g
      · cases g
      · rename_i c e
        simp only [Option.some.injEq, Prod.mk.injEq] at g
        obtain ⟨_, g, _⟩ := g
        cases d1 with
        | nil =>
          cases g
          rw [k.executing] at e
          refine .inl ⟨st, rfl, ?_⟩
          cases hl : latest (expects st) pre0 with
          | none => rw [hl] at e; cases e
          | some y => rw [hl] at e; exact congrArg _ e
        | cons z d1 => simp at g
    | ack st hd =>
      simp only [Tables.handle] at g
      split at g
      · cases g
      · rename_i c e
        simp only [Option.some.injEq, Prod.mk.injEq] at g
        obtain ⟨_, g, _⟩ := g
        cases d1 with
        | nil => cases g; exact .inl ⟨st, rfl, by rw [← k.acks, e]⟩
        | cons z d1 => simp at g
    | abortAck st b =>
      cases b with
      | none => cases g
      | some b =>
        simp only [Tables.handle] at g
        split at g
        · cases g
        · rename_i c e
          simp only [Option.some.injEq, Prod.mk.injEq] at g
          obtain ⟨_, g, _⟩ := g
          cases d1 with
          | nil =>
            cases g
            rw [k.aborting] at e
            refine ⟨st, rfl, ?_⟩
            cases hl : latest (aborts st) pre0 with
            | none => rw [hl] at e; cases e
            | some y => rw [hl] at e; exact congrArg _ e
          | cons z d1 => simp at g
    | updateAck n =>
      simp only [Tables.handle] at g
      split at g
      · cases g
      · rename_i c e
        simp only [Option.some.injEq, Prod.mk.injEq] at g
        obtain ⟨_, g, _⟩ := g
        cases d1 with
        | nil => cases g; exact ⟨n, rfl, by rw [← k.updates, e]⟩
        | cons z d1 => simp at g
    | sendPlan f =>
      simp only [Tables.handle, Option.some.injEq, Prod.mk.injEq] at g
      obtain ⟨_, g, _⟩ := g
      simp at g
    | nothing =>
      simp only [Tables.handle, Option.some.injEq, Prod.mk.injEq] at g
      obtain ⟨_, g, _⟩ := g
      simp at g
    | bad => cases g
  · cases a with
    | lookup st =>
      have hv : (t0.asked text (.lookup st)).2 = [.value st (valueOf zero st pre0)] := by
        rw [← k.states st]; simp only [Tables.asked]; split <;> rename_i e <;> simp [e]
      rw [hv] at g
      cases d1 with
      | nil => cases g; exact .inr ⟨rfl, rfl⟩
      | cons z d1 => simp at g
    | execute c st ret =>
      simp only [Tables.asked] at g
      split at g
      · rename_i e
        cases d1 with
        | nil =>
          cases g
          refine .inr (.inr ⟨rfl, st, ret, .inl ⟨rfl, ?_⟩⟩)
          simp only [builtin] at e
          split at e
          · simpa using ‹_›
          · split at e <;> cases e
        | cons z d1 => simp at g
      · rename_i e
        have hn : st.name ∈ ["printToString", "pprintToString"] := by
          simp only [builtin] at e
          split at e
          · cases e
          · split at e
            · simpa using ‹_›
            · cases e
        cases d1 with
        | nil => cases g; exact .inr ⟨st, ret, rfl, rfl, hn⟩
        | cons z d1 =>
          cases d1 with
          | nil =>
            simp only [List.cons_append, List.nil_append, List.cons.injEq] at g
            obtain ⟨rfl, rfl, _⟩ := g
            exact .inr (.inr ⟨rfl, st, ret, .inr ⟨rfl, hn⟩⟩)
          | cons y d1 => simp at g
      · simp at g
    | deny c =>
      simp only [Tables.asked] at g
      cases d1 with
      | nil => cases g; exact .inr (.inl ⟨rfl, rfl⟩)
      | cons z d1 => simp at g
    | abort c st => simp [Tables.asked] at g
    | update u n => simp [Tables.asked] at g

theorem latest_mem {α β : Type} {f : β → Option α} {l : List β} {x : α} (h : latest f l = some x) : ∃ z ∈ l, f z = some x := by
  obtain ⟨z, h1, h2⟩ := List.exists_of_findSome?_eq_some h
  exact ⟨z, by simpa using h1, h2⟩

/-- C126: two commands with the same name and parameters cannot both be answered. Once the second has been sent, no script can acknowledge the first (unless it is sent again), nor, if the second
expects a result, give it one. -/
theorem c126_shadowed (h : Runs M text zero initial script r) {c1 c2 : C} {st : State V} {r1 r2 : Bool} {a b d : List (Obs V C U P)} (hne : c1 ≠ c2)
    (ht : r.trace = a ++ .ask (.execute c1 st r1) :: (b ++ .ask (.execute c2 st r2) :: d)) (hb : st.name ∉ ["print", "pprint", "printToString", "pprintToString"])
    (honce : ∀ st' ret, .ask (.execute c1 st' ret) ∉ a ++ b ++ d) (hden : .ask (.deny c1) ∉ d) :
    (∀ hd, .tell (.handle c1 hd) ∉ d) ∧ (r2 = true → ∀ v, .tell (.result c1 v) ∉ d) := by
  -- what comes before something told after the second was sent
  have hpre : ∀ {x : Tell V C U} {d1 d2 : List (Obs V C U P)} {pre0 : List (Obs V C U P)} {e : Obs V C U P}, d = d1 ++ .tell x :: d2 →
      a ++ .ask (.execute c1 st r1) :: (b ++ .ask (.execute c2 st r2) :: d1) = pre0 ++ [e] → (∀ c s ret, e = .ask (.execute c s ret) → c ≠ c2) →
      ∃ d0, d1 = d0 ++ [e] ∧ pre0 = a ++ .ask (.execute c1 st r1) :: (b ++ .ask (.execute c2 st r2) :: d0) := by
    intro x d1 d2 pre0 e _ h2 h3
    rcases List.eq_nil_or_concat d1 with rfl | ⟨d0, y, rfl⟩
    · have h4 : (a ++ .ask (.execute c1 st r1) :: b) ++ [.ask (.execute c2 st r2)] = pre0 ++ [e] := by simpa using h2
      have := (List.append_inj' h4 rfl).2
      simp only [List.cons.injEq, and_true] at this
      exact absurd rfl (h3 _ _ _ this.symm)
    · have h4 : (a ++ .ask (.execute c1 st r1) :: (b ++ .ask (.execute c2 st r2) :: d0)) ++ [y] = pre0 ++ [e] := by simpa using h2
      have := List.append_inj' h4 rfl
      simp only [List.cons.injEq, and_true] at this
      exact ⟨d0, by rw [this.2]; simp, this.1.symm⟩
  have hin : ∀ st' ret, .ask (.execute c1 st' ret) ∉ a ∧ .ask (.execute c1 st' ret) ∉ b ∧ .ask (.execute c1 st' ret) ∉ d := by
    intro st' ret
    have := honce st' ret
    simp only [List.mem_append, not_or] at this
    exact ⟨this.1.1, this.1.2, this.2⟩
  have hout : ∀ {x : Tell V C U} {d1 d2 : List (Obs V C U P)}, d = d1 ++ .tell x :: d2 →
      r.trace = (a ++ .ask (.execute c1 st r1) :: (b ++ .ask (.execute c2 st r2) :: d1)) ++ .tell x :: d2 := by
    intro x d1 d2 hd; rw [ht, hd]; simp
  refine ⟨fun hd hmem => ?_, fun hr2 v hmem => ?_⟩
  · obtain ⟨d1, d2, hd'⟩ := List.append_of_mem hmem
    obtain ⟨pre0, g⟩ := c126_reason h (hout hd')
    simp only at g
    rcases g with ⟨st', g1, g2⟩ | ⟨g1, _⟩ | ⟨_, st', ret, ⟨g1, _⟩ | ⟨g1, _⟩⟩
    · obtain ⟨d0, rfl, rfl⟩ := hpre hd' g1 (by intro _ _ _ h; cases h)
      by_cases hs : st' = st
      · subst hs
        rw [latest_append, latest_cons, latest_append, latest_cons] at g2
        have hx : sends (U := U) (P := P) st' (.ask (.execute c2 st' r2)) = some c2 := by simp only [sends, hb, not_false_eq_true, and_true, if_true]
        rw [hx] at g2
        cases hl : latest (sends st') d0 with
        | none => rw [hl] at g2; simp at g2; exact hne g2.symm
        | some y =>
          rw [hl] at g2; simp at g2; subst g2
          obtain ⟨z, hz, hz'⟩ := latest_mem hl
          unfold sends at hz'
          split at hz'
          · split at hz'
            · rename_i hc; cases hz'; exact (hin _ _).2.2 (hd' ▸ List.mem_append_left _ (List.mem_append_left _ hz))
            · cases hz'
          · cases hz'
      · obtain ⟨z, hz, hz'⟩ := latest_mem g2
        unfold sends at hz'
        split at hz'
        · split at hz'
          · rename_i hc
            cases hz'
            simp only [List.mem_append, List.mem_cons, Obs.ask.injEq, Ask.execute.injEq] at hz
            rcases hz with hz | ⟨_, hz, _⟩ | hz | ⟨hz, _⟩ | hz
            · exact (hin _ _).1 hz
            · exact hs (hc.1 ▸ hz)
            · exact (hin _ _).2.1 hz
            · exact hne hz
            · exact (hin _ _).2.2 (hd' ▸ List.mem_append_left _ (List.mem_append_left _ hz))
          · cases hz'
        · cases hz'
    · obtain ⟨d0, rfl, rfl⟩ := hpre hd' g1 (by intro _ _ _ h; cases h)
      exact hden (by rw [hd']; simp)
    · obtain ⟨d0, rfl, rfl⟩ := hpre hd' g1 (by intro _ _ _ h; cases h; exact hne)
      exact (hin st' ret).2.2 (by rw [hd']; simp)
    · have g1' : a ++ .ask (.execute c1 st r1) :: (b ++ .ask (.execute c2 st r2) :: d1) = (pre0 ++ [.ask (.execute c1 st' ret)]) ++ [.tell (.result c1 (some (text st')))] := by simpa using g1
      obtain ⟨d0, rfl, g3⟩ := hpre hd' g1' (by intro _ _ _ h; cases h)
      obtain ⟨e0, rfl, _⟩ := hpre (x := .result c1 (some (text st'))) (d1 := d0) (d2 := .tell (.handle c1 hd) :: d2) (by simpa using hd') g3.symm (by intro _ _ _ h; cases h; exact hne)
      exact (hin st' ret).2.2 (by rw [hd']; simp)
  · obtain ⟨d1, d2, hd'⟩ := List.append_of_mem hmem
    subst hr2
    obtain ⟨pre0, g⟩ := c126_reason h (hout hd')
    simp only at g
    rcases g with ⟨st', g1, g2⟩ | ⟨st', ret, g1, _⟩
    · obtain ⟨d0, rfl, rfl⟩ := hpre hd' g1 (by intro _ _ _ h; cases h)
      by_cases hs : st' = st
      · subst hs
        rw [latest_append, latest_cons, latest_append, latest_cons] at g2
        have hx : expects (U := U) (P := P) st' (.ask (.execute c2 st' true)) = some (some c2) := by simp only [expects, hb, not_false_eq_true, and_true, if_true]
        rw [hx] at g2
        cases hl : latest (expects st') d0 with
        | none => rw [hl] at g2; simp at g2; exact hne g2.symm
        | some y =>
          rw [hl] at g2; simp at g2; subst g2
          obtain ⟨z, hz, hz'⟩ := latest_mem hl
          unfold expects at hz'
          split at hz'
          · split at hz'
            · rename_i hc; cases hz'; exact (hin _ _).2.2 (hd' ▸ List.mem_append_left _ (List.mem_append_left _ hz))
            · cases hz'
          · split at hz' <;> cases hz'
          · cases hz'
      · obtain ⟨z, hz, hz'⟩ := latest_mem g2
        unfold expects at hz'
        split at hz'
        · split at hz'
          · rename_i hc
            cases hz'
            simp only [List.mem_append, List.mem_cons, Obs.ask.injEq, Ask.execute.injEq] at hz
            rcases hz with hz | ⟨_, hz, _⟩ | hz | ⟨hz, _⟩ | hz
            · exact (hin _ _).1 hz
            · exact hs (hc.1 ▸ hz)
            · exact (hin _ _).2.1 hz
            · exact hne hz
            · exact (hin _ _).2.2 (hd' ▸ List.mem_append_left _ (List.mem_append_left _ hz))
          · cases hz'
        · split at hz' <;> cases hz'
        · cases hz'
    · obtain ⟨d0, rfl, rfl⟩ := hpre hd' g1 (by intro _ _ _ h; cases h; exact hne)
      exact (hin st' ret).2.2 (by rw [hd']; simp)

/-! ## C127: the run -/

theorem bySteps_append (l m : List (Obs V C U P)) : bySteps (l ++ m) = m.foldl byStep (bySteps l) := by unfold bySteps; rw [List.foldl_append]

theorem bySteps_tells (s : List (List (Item V P)) × List (Item V P)) (l : List (Obs V C U P)) (h : ∀ x ∈ l, isHead x = false) : l.foldl byStep s = s := by
  induction l with
  | nil => rfl
  | cons x l ih =>
    rw [List.foldl_cons]
    have h1 := h x (by simp)
    cases x with
    | step => cases h1
    | read i => cases h1
    | ask a => cases h1
    | tell d => exact ih fun y hy => h y (by simp [hy])
    | add p => exact ih fun y hy => h y (by simp [hy])

/-- How far a run is. -/
def Progress (initial : List (Item V P)) (script : List (Elem V P)) (r : Run σ V C U P) : Prop :=
  match r.mode with
  | .reading => initial :: script.map Elem.items = (bySteps r.trace).1 ++ ((bySteps r.trace).2 ++ r.now) :: r.rest.map Elem.items
  | .failed => ∃ l, initial :: script.map Elem.items = (bySteps r.trace).1 ++ ((bySteps r.trace).2 ++ l) :: r.rest.map Elem.items
  | .stepping => (bySteps r.trace).2 = [] ∧ ∃ n, (bySteps r.trace).1 ++ r.rest.map Elem.items = initial :: script.map Elem.items ++ List.replicate n [] ∧ (r.rest ≠ [] → n = 0)
  | .over => (bySteps r.trace).2 = [] ∧ r.rest = [] ∧ ∃ n, (bySteps r.trace).1 = initial :: script.map Elem.items ++ List.replicate n []

theorem Runs.progress (h : Runs M text zero initial script r) : Progress initial script r := by
  induction h with
  | start s => simp [Progress, Run.start, bySteps]
  | @tick r h ih =>
    unfold Progress at ih
    unfold Run.tick
    split
    · rename_i hm
      simp only [hm] at ih
      split
      · rename_i i is hnow
        cases hh : r.tables.handle i with
        | none =>
          simp only [Progress, bySteps_append, List.foldl_cons, byStep, List.foldl_nil]
          exact ⟨is, by simpa [hnow] using ih⟩
        | some x =>
          obtain ⟨t, ds, p⟩ := x
          simp only [Progress, hm, List.append_assoc, bySteps_append, List.cons_append, List.foldl_cons, byStep, bySteps_tells _ _ (tells_tail ds p)]
          simpa [hnow] using ih
      · rename_i hnow
        simp only [Progress, bySteps_append, List.foldl_cons, byStep, List.foldl_nil]
        refine ⟨trivial, 0, ?_, fun _ => rfl⟩
        simpa [hnow] using ih.symm
    · rename_i hm
      simp only [hm] at ih
      obtain ⟨h1, n, h2, h3⟩ := ih
      split
      · simp only [Progress, hm, bySteps_append, List.foldl_cons, byStep, bySteps_tells _ _ (tells_tail' _)]
        exact ⟨h1, n, h2, h3⟩
      · split
        · rename_i e es hr
          simp only [Progress, h1]
          rw [hr] at h2 h3
          rw [h3 (by simp)] at h2
          simpa using h2.symm
        · rename_i hr
          rw [hr] at h2
          split
          · simp only [Progress, hm, bySteps_append, List.foldl_cons, byStep, List.foldl_nil]
            refine ⟨trivial, n + 1, ?_, fun g => absurd hr g⟩
            rw [hr, h1]
            simp only [List.map_nil, List.append_nil] at h2 ⊢
            rw [h2, List.replicate_succ']; simp
          · simp only [Progress]
            exact ⟨h1, hr, n, by simpa using h2⟩
    · rename_i hm; simp only [Progress, hm] at ih ⊢; exact ih
    · rename_i hm; simp only [Progress, hm] at ih ⊢; exact ih

/-- C127: the script is read in order, nothing twice and nothing left out. At any time, the items read before the first step are those of InitialState, those read between the first and the second step
are those of the first element of the script, and so on, up to the part of the element being read; or the script has been read completely, and further steps followed. -/
theorem c127_order (h : Runs M text zero initial script r) :
    (∃ rem after, initial :: script.map Elem.items = (bySteps r.trace).1 ++ ((bySteps r.trace).2 ++ rem) :: after) ∨
    ((bySteps r.trace).2 = [] ∧ ∃ n, (bySteps r.trace).1 = initial :: script.map Elem.items ++ List.replicate n []) := by
  have hp := h.progress
  unfold Progress at hp
  split at hp
  · exact .inl ⟨_, _, hp⟩
  · exact .inl ⟨_, _, hp.choose_spec⟩
  · obtain ⟨h1, n, h2, h3⟩ := hp
    cases hr : r.rest with
    | nil => exact .inr ⟨h1, n, by rw [hr] at h2; simpa using h2⟩
    | cons e es =>
      rw [hr] at h2 h3
      rw [h3 (by simp)] at h2
      exact .inl ⟨e.items, es.map Elem.items, by rw [h1]; simpa using h2.symm⟩
  · exact .inr ⟨hp.1, hp.2.2⟩

/-- C127: when `run` has returned, the whole script has been read, one step made after each element (and after InitialState), and the executive needs no further step. -/
theorem c127_over (h : Runs M text zero initial script r) (ho : r.mode = .over) :
    (bySteps r.trace).2 = [] ∧ (∃ n, (bySteps r.trace).1 = initial :: script.map Elem.items ++ List.replicate n []) ∧ M.needs r.exec = false ∧ M.next r.exec = none := by
  have hp := h.progress
  simp only [Progress, ho] at hp
  refine ⟨hp.1, hp.2.2, ?_⟩
  clear hp
  induction h with
  | start s => cases ho
  | @tick r h ih =>
    unfold Run.tick at ho ⊢
    split at ho
    · rename_i hm
      split at ho
      · rename_i i is _
        cases hh : r.tables.handle i with
        | none => rw [hh] at ho; cases ho
        | some x => rw [hh] at ho; rw [hm] at ho; cases ho
      · cases ho
    · rename_i hm
      split at ho
      · simp [hm] at ho
      · rename_i hn
        split at ho
        · cases ho
        · split at ho
          · simp [hm] at ho
          · rename_i hneed
            simp only [hm, hn]
            simp [hneed, hn]
    · rename_i hm; exact ih hm
    · rename_i hm; rw [hm] at ho; cases ho

/-- C127: a run that failed has read an item last that TestExec does not know, or that answers something nobody asked. -/
theorem c127_failed (h : Runs M text zero initial script r) (ho : r.mode = .failed) : ∃ pre i, r.trace = pre ++ [.read i] ∧
    match i with
    | .value _ _ => False
    | .result st _ => (latest (expects st) pre).join = none
    | .ack st _ => latest (sends st) pre = none
    | .abortAck st b => (latest (aborts st) pre).join = none ∨ b = none
    | .updateAck n => waiting n pre = none
    | .sendPlan _ => False
    | .nothing => False
    | .bad => True := by
  obtain ⟨f, hf, hg⟩ := h.gen
  have hft := hf.2 ho
  subst hft
  generalize r.trace = tr at hg
  generalize r.tables = t at hg
  cases hg with
  | @fail tr t i hg hh =>
    have k := hg.known rfl
    refine ⟨tr, i, rfl, ?_⟩
    cases i with
    | value st v => cases hh
    | result st v => simp only [Tables.handle] at hh; split at hh <;> [(rename_i e; show (latest (expects st) tr).join = none; rw [← k.executing, e]); cases hh]
    | ack st v => simp only [Tables.handle] at hh; split at hh <;> [(rename_i e; show latest (sends st) tr = none; rw [← k.acks, e]); cases hh]
    | abortAck st b =>
      show (latest (aborts st) tr).join = none ∨ b = none
      cases b with
      | none => exact .inr rfl
      | some b => simp only [Tables.handle] at hh; split at hh <;> [(rename_i e; exact .inl (by rw [← k.aborting, e])); cases hh]
    | updateAck n => simp only [Tables.handle] at hh; split at hh <;> [(rename_i e; show waiting n tr = none; rw [← k.updates, e]); cases hh]
    | sendPlan f => cases hh
    | nothing => cases hh
    | bad => trivial

theorem no_bad {tr : List (Obs V C U P)} {t : Tables V C U} {b : Bool} (hg : Gen text zero tr t b) (hb : b = false) : .read .bad ∉ tr := by
  induction hg with
  | nil => simp
  | @read tr t i t' ds p hg hh ih =>
    intro hm
    rcases List.mem_append.mp hm with hm | hm
    · exact ih rfl hm
    · rcases List.mem_cons.mp hm with hm | hm
      · injection hm with hm; subst hm; cases hh
      · rcases List.mem_append.mp hm with hm | hm <;> obtain ⟨_, _, h⟩ := List.mem_map.mp hm <;> cases h
  | fail hg hh ih => cases hb
  | ask hg ih =>
    intro hm
    rcases List.mem_append.mp hm with hm | hm
    · exact ih rfl hm
    · rcases List.mem_cons.mp hm with hm | hm
      · cases hm
      · obtain ⟨_, _, h⟩ := List.mem_map.mp hm; cases h
  | step hg ih =>
    intro hm
    rcases List.mem_append.mp hm with hm | hm
    · exact ih rfl hm
    · rw [List.mem_singleton] at hm; cases hm

theorem bySteps_mem (tr : List (Obs V C U P)) : ∀ (s : List (List (Item V P)) × List (Item V P)) (l : List (Item V P)) (i : Item V P), l ∈ (tr.foldl byStep s).1 → i ∈ l →
    l ∈ s.1 ∨ i ∈ s.2 ∨ .read i ∈ tr := by
  induction tr with
  | nil => intro s l i h _; exact .inl h
  | cons o tr ih =>
    intro s l i h hi
    rcases ih (byStep s o) l i h hi with h | h | h
    · cases o <;> simp only [byStep] at h <;> try exact .inl h
      rcases List.mem_append.mp h with h | h
      · exact .inl h
      · rw [List.mem_singleton] at h; subst h; exact .inr (.inl hi)
    · cases o <;> simp only [byStep] at h <;> try exact .inr (.inl h)
      · rcases List.mem_append.mp h with h | h
        · exact .inr (.inl h)
        · rw [List.mem_singleton] at h; subst h; exact .inr (.inr (by simp))
      · cases h
    · exact .inr (.inr (List.mem_cons_of_mem _ h))

/-- C127: when `run` has returned, what was read before each step is exactly what is written in the element, in the order it is written, and no Simultaneous had a SendPlan in it (such a script fails). -/
theorem c127_contents (h : Runs M text zero initial script r) (ho : r.mode = .over) :
    (∃ n, (bySteps r.trace).1 = initial :: script.map Elem.contents ++ List.replicate n []) ∧ ∀ l f, .simultaneous l ∈ script → .sendPlan f ∉ l := by
  obtain ⟨_, ⟨n, h1⟩, _⟩ := c127_over h ho
  obtain ⟨f, hf, hg⟩ := h.gen
  have hff : f = false := by cases f with
    | false => rfl
    | true => rw [hf.1 rfl] at ho; cases ho
  have nb := no_bad hg hff
  have key : ∀ l f, Elem.simultaneous l ∈ script → .sendPlan f ∉ l := by
    intro l f hl hm
    have hmem : l.map inside ∈ (bySteps r.trace).1 := by
      rw [h1]
      exact List.mem_append_left _ (List.mem_cons_of_mem _ (List.mem_map.mpr ⟨_, hl, rfl⟩))
    have hbad : Item.bad ∈ l.map inside := List.mem_map.mpr ⟨_, hm, rfl⟩
    rcases bySteps_mem r.trace ([], []) _ _ hmem hbad with h | h | h
    · cases h
    · cases h
    · exact nb h
  refine ⟨⟨n, ?_⟩, key⟩
  rw [h1]
  have : script.map Elem.items = script.map Elem.contents := by
    apply List.map_congr_left
    intro e he
    cases e with
    | one i => rfl
    | simultaneous l =>
      show l.map inside = l
      conv => rhs; rw [← List.map_id l]
      apply List.map_congr_left
      intro i hi
      cases i with
      | sendPlan f => exact absurd hi (key l f he)
      | _ => rfl
  rw [this]

/-- C127: SendPlan does not add the plan of any plan file: in a plan file the element PlexilPlan is the document element, and TestExec looks for it among that element's children. Nothing is reported to
the script: the run goes on. (`TestExternalInterface.cc:260`; `parsePlan.cc:130-135`.) -/
theorem c127_sendPlan_refuted (h : Runs M text zero initial script r) {f : PlanFile P} (hf : ∀ k ∈ f.kids, k.1 = "GlobalDeclarations" ∨ k.1 = "Node")
    (ht : r.trace = pre ++ .read (.sendPlan f) :: post) : (∀ p post', post ≠ .add p :: post') ∧ (post = [] → r.mode ≠ .failed) := by
  obtain ⟨f', hf', hg⟩ := h.gen
  have hnone : ((f.kids.find? fun k => decide (k.1 = "PlexilPlan")).map Prod.snd).join = none := by
    rw [List.find?_eq_none.2]
    · rfl
    · intro k hk
      rcases hf k hk with e | e <;> rw [e] <;> decide
  have key : ∀ {tr : List (Obs V C U P)} {t : Tables V C U} {b : Bool}, Gen text zero tr t b → ∀ {pre post p}, tr = pre ++ .add p :: post →
      ∃ pre0 i t0 t' ds, pre = pre0 ++ .read i :: ds.map .tell ∧ Tables.handle t0 i = some (t', ds, some p) ∧ Known zero pre0 t0 := by
    intro tr t b hg
    induction hg with
    | nil => intro pre post p h; simp at h
    | @read tr t j t' ds q hg hh ih =>
      intro pre post p h
      rcases split_tail rfl rfl h with ⟨a, rfl, h1⟩ | ⟨c, h1, rfl⟩
      · have : ∃ a', a = ds.map .tell ++ a' ∧ q.toList.map (Obs.add (V := V) (C := C) (U := U)) = a' ++ .add p :: post := by
          clear hh h
          induction ds generalizing a with
          | nil => exact ⟨a, rfl, by simpa using h1⟩
          | cons d ds ih' =>
            cases a with
            | nil => simp at h1
            | cons z a =>
              simp only [List.map_cons, List.cons_append, List.cons.injEq] at h1
              obtain ⟨a', rfl, h3⟩ := ih' a h1.2
              exact ⟨a', by rw [← h1.1]; rfl, h3⟩
        obtain ⟨a', rfl, h3⟩ := this
        cases q with
        | none => simp at h3
        | some q =>
          cases a' with
          | nil => simp at h3; exact ⟨tr, j, t, t', ds, by simp, by rw [hh, h3.1], hg.known rfl⟩
          | cons z a' => simp at h3
      · exact ih h1
    | @fail tr t j hg hh ih =>
      intro pre post d h
      rcases split_tail rfl rfl h with ⟨a, rfl, h1⟩ | ⟨c, h1, rfl⟩
      · simp at h1
      · exact ih h1
    | @ask tr t a hg ih =>
      intro pre post d h
      rcases split_tail rfl rfl h with ⟨a', rfl, h1⟩ | ⟨c, h1, rfl⟩
      · have := tells_tail' (P := P) (t.asked text a).2 (.add d) (by rw [h1]; simp)
        have hx : Obs.add d ∈ (t.asked text a).2.map (Obs.tell (P := P)) := by rw [h1]; simp
        simp at hx
      · exact ih h1
    | @step tr t hg ih =>
      intro pre post d h
      rcases split_tail rfl rfl h with ⟨a', rfl, h1⟩ | ⟨c, h1, rfl⟩
      · simp at h1
      · exact ih h1
  constructor
  · rintro p post' rfl
    obtain ⟨pre0, i, t0, t', ds, g1, g2, _⟩ := key hg (pre := pre ++ [.read (.sendPlan f)]) (post := post') (p := p) (by simpa using ht)
    cases ds with
    | nil =>
      have := (List.append_inj' g1 rfl).2
      simp only [List.map_nil, List.cons.injEq, Obs.read.injEq, and_true] at this
      subst this
      simp only [Tables.handle, hnone] at g2
      cases g2
    | cons d ds =>
      rcases List.eq_nil_or_concat ds with rfl | ⟨ds', y, rfl⟩
      · have g1' : pre ++ [Obs.read (.sendPlan f)] = (pre0 ++ [.read i]) ++ [.tell d] := by simpa using g1
        have := (List.append_inj' g1' rfl).2
        simp at this
      · have g1' : pre ++ [Obs.read (.sendPlan f)] = (pre0 ++ .read i :: .tell d :: ds'.map .tell) ++ [.tell y] := by simpa using g1
        have := (List.append_inj' g1' rfl).2
        simp at this
  · rintro rfl ho
    obtain ⟨pre', i, g1, g2⟩ := c127_failed h ho
    rw [ht] at g1
    have := (List.append_inj' g1 rfl).2
    simp only [List.cons.injEq, Obs.read.injEq, and_true] at this
    subst this
    exact g2

/-! ## Runs -/

set_option maxRecDepth 10000

/-- `n` ticks. -/
def ticks (M : Machine σ V C U P) (text : State V → V) : Nat → Run σ V C U P → Run σ V C U P
  | 0, r => r
  | n + 1, r => ticks M text n (r.tick M text)

theorem ticks_runs (n : Nat) : ∀ {r : Run σ V C U P}, Runs M text zero initial script r → Runs M text zero initial script (ticks M text n r) := by
  induction n with
  | zero => exact fun h => h
  | succ n ih => exact fun h => ih h.tick

/-- An executive that asks for given things in each step (an example; see `PlexilExec.hh`). -/
def asker : Machine (List (Ask Nat Nat Nat) × List (List (Ask Nat Nat Nat))) Nat Nat Nat Unit where
  tell s _ := s
  add s _ := s
  begin s := (s.2.headD [], s.2.tail)
  next s := s.1.head?.map fun a => (a, (s.1.tail, s.2))
  needs s := decide (s.2.length ≠ 0)

/-- In the first step it looks up a state and sends two commands, one of them expecting a result; in the second it sends an update, and prints; in the third it sends the second command again, from another
node. (An example; see `PlexilExec.hh`.) -/
def asks : List (List (Ask Nat Nat Nat)) :=
  [[.lookup ⟨"x", []⟩, .execute 1 ⟨"go", [5]⟩ true, .execute 2 ⟨"stop", []⟩ false],
   [.update 9 "U", .execute 3 ⟨"print", [1]⟩ false],
   [.execute 4 ⟨"stop", []⟩ false]]

/-- A script for it (an example; see `TestExternalInterface.cc:84-135`). -/
def answers : List (Elem Nat Unit) :=
  [.simultaneous [.result ⟨"go", [5]⟩ (some 8), .ack ⟨"stop", []⟩ .success], .one (.updateAck "U"), .one (.ack ⟨"stop", []⟩ .failed), .one (.ack ⟨"go", [5]⟩ .success)]

/-- The hypotheses of the theorems are met: this run returns. Each is answered: the second acknowledgement of `stop` goes to the second command. -/
example : ∃ r : Run _ Nat Nat Nat Unit, Runs asker (fun _ => 0) 0 [.value ⟨"x", []⟩ (some 3)] answers r ∧ r.mode = .over ∧ r.trace =
    [.read (.value ⟨"x", []⟩ (some 3)), .tell (.value ⟨"x", []⟩ (some 3)), .step,
     .ask (.lookup ⟨"x", []⟩), .tell (.value ⟨"x", []⟩ (some 3)), .ask (.execute 1 ⟨"go", [5]⟩ true), .ask (.execute 2 ⟨"stop", []⟩ false),
     .read (.result ⟨"go", [5]⟩ (some 8)), .tell (.result 1 (some 8)), .read (.ack ⟨"stop", []⟩ .success), .tell (.handle 2 .success), .step,
     .ask (.update 9 "U"), .ask (.execute 3 ⟨"print", [1]⟩ false), .tell (.handle 3 .success), .read (.updateAck "U"), .tell (.updateAck 9), .step,
     .ask (.execute 4 ⟨"stop", []⟩ false), .read (.ack ⟨"stop", []⟩ .failed), .tell (.handle 4 .failed), .step,
     .read (.ack ⟨"go", [5]⟩ .success), .tell (.handle 1 .success), .step] :=
  ⟨_, ticks_runs 40 (.start ([], asks)), rfl, rfl⟩

/-- The hypotheses of `c126_shadowed` are met. -/
example : ∃ (r : Run _ Nat Nat Nat Unit) (a b d : List (Obs Nat Nat Nat Unit)), Runs asker (fun _ => 0) 0 [] [.one .nothing, .one .nothing, .one (.ack ⟨"stop", []⟩ .failed)] r ∧
    r.trace = a ++ .ask (.execute 2 ⟨"stop", []⟩ false) :: (b ++ .ask (.execute 4 ⟨"stop", []⟩ false) :: d) ∧ .tell (.handle 4 .failed) ∈ d :=
  ⟨_, [.step, .ask (.lookup ⟨"x", []⟩), .tell (.value ⟨"x", []⟩ none), .ask (.execute 1 ⟨"go", [5]⟩ true)],
    [.read .nothing, .step, .ask (.update 9 "U"), .ask (.execute 3 ⟨"print", [1]⟩ false), .tell (.handle 3 .success), .read .nothing, .step],
    [.read (.ack ⟨"stop", []⟩ .failed), .tell (.handle 4 .failed), .step], ticks_runs 40 (.start ([], asks)), rfl, by simp⟩

/-- The hypotheses of `c127_failed` and `c127_sendPlan_refuted` are met. -/
example : ∃ r : Run _ Nat Nat Nat Unit, Runs asker (fun _ => 0) 0 [] [.one (.sendPlan ⟨"PlexilPlan", [("Node", none)]⟩), .one (.result ⟨"go", [5]⟩ (some 8)), .one (.result ⟨"go", [5]⟩ (some 8))] r ∧
    r.mode = .failed ∧ .read (.sendPlan ⟨"PlexilPlan", [("Node", none)]⟩) ∈ r.trace :=
  ⟨_, ticks_runs 40 (.start ([], asks)), rfl, by
    show _ ∈ ([.step, .ask (.lookup ⟨"x", []⟩), .tell (.value ⟨"x", []⟩ none), .ask (.execute 1 ⟨"go", [5]⟩ true), .ask (.execute 2 ⟨"stop", []⟩ false),
      .read (.sendPlan ⟨"PlexilPlan", [("Node", none)]⟩), .step, .ask (.update 9 "U"), .ask (.execute 3 ⟨"print", [1]⟩ false), .tell (.handle 3 .success),
      .read (.result ⟨"go", [5]⟩ (some 8)), .tell (.result 1 (some 8)), .step, .ask (.execute 4 ⟨"stop", []⟩ false), .read (.result ⟨"go", [5]⟩ (some 8))] : List (Obs Nat Nat Nat Unit))
    simp⟩

/-! ## The executive of the Exec model under TestExec -/

/-- A plan: a list (0) of an assignment (1) and a node (2) that waits for the assignment. (An example; see `NodeImpl.cc`.) -/
def slow : Verif.Epx.Block Int Nat :=
  [(0, { type := .list, anc := [], children := [1, 2], rhs := fun _ => 0 }), (1, { type := .assignment, anc := [0], dest := 0, rhs := fun _ => 7 }),
   (2, { type := .empty, anc := [0], start := some (Verif.Epx.nodeFinished 1), rhs := fun _ => 0 })]

/-- The executive of the Exec model, running that plan, for TestExec: a step is a macro step (`PlexilExec.cc:249-398`), it needs one when there are candidates (`PlexilExec.cc:241-244`), a value that it is told may
concern every node. -/
def executive : Machine (Verif.Exec.Phase × Verif.Exec.St Int Nat) Nat Nat Nat Unit where
  tell s x := match x with
    | .value _ v => (Verif.Exec.run (Verif.Epx.planOf slow) [.cmd (.ext (v.getD 0) [0, 1, 2])] s).getD s
    | _ => s
  add s _ := s
  begin s := (Verif.Exec.run (Verif.Epx.planOf slow) [.macroStep] s).getD s
  next _ := none
  needs s := !s.2.cand.isEmpty

/-- C127: the elements of the script do not wait for the executive to settle: the next one is read while the executive still needs a step, and what it says reaches a plan that has not reacted to what was
before it. (`TestExternalInterface.cc:137-138`: one `step` per element, not one as long as `needsStep`; and a step ends when there is something to assign or send, `PlexilExec.cc:376-380`.) -/
theorem c127_unsettled_refuted : ∃ r, Runs (V := Nat) executive (fun _ => 0) 0 [.value ⟨"x", []⟩ (some 0)] [.one (.value ⟨"x", []⟩ (some 1))] r ∧
    r.mode = .reading ∧ r.now = [.value ⟨"x", []⟩ (some 1)] ∧ executive.needs r.exec = true ∧ r.exec.2.st 1 = .executing :=
  ⟨_, ticks_runs 3 (.start (.idle, Verif.Exec.init (fun _ => 0) 0)), rfl, rfl, rfl, rfl⟩

end Verif.Script
