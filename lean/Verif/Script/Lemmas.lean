import Verif.Script.Spec
/-
Lemmas about TestExec: what has happened determines the tables.
-/
set_option autoImplicit false
set_option linter.unusedSimpArgs false
set_option linter.unusedSectionVars false
namespace Verif.Script
open Verif.Text (Handle)

variable {σ V C U P : Type} [DecidableEq V]

/-- What has happened, piece by piece: an item read, with what is told because of it; something asked for, with what is told at once; a step. -/
inductive Gen (text : State V → V) (zero : V) : List (Obs V C U P) → Tables V C U → Bool → Prop
  | nil : Gen text zero [] (.init zero) false
  | read {tr t i t' ds} {p : Option P} : Gen text zero tr t false → t.handle i = some (t', ds, p) →
      Gen text zero (tr ++ .read i :: (ds.map .tell ++ p.toList.map .add)) t' false
  | fail {tr t i} : Gen text zero tr t false → t.handle i = none → Gen text zero (tr ++ [.read i]) t true
  | ask {tr t a} : Gen text zero tr t false → Gen text zero (tr ++ .ask a :: (t.asked text a).2.map .tell) (t.asked text a).1 false
  | step {tr t} : Gen text zero tr t false → Gen text zero (tr ++ [.step]) t false

theorem Runs.gen {M : Machine σ V C U P} {text : State V → V} {zero : V} {initial script} {r : Run σ V C U P} (h : Runs M text zero initial script r) :
    ∃ f, (f = true ↔ r.mode = .failed) ∧ Gen text zero r.trace r.tables f := by
  induction h with
  | start s => exact ⟨false, by simp [Run.start], .nil⟩
  | @tick r h ih =>
    obtain ⟨f, hf, ih⟩ := ih
    have hff : r.mode ≠ .failed → Gen text zero r.trace r.tables false := fun hm => by
      cases f with
      | false => exact ih
      | true => exact absurd (hf.1 rfl) hm
    unfold Run.tick
    split
    · rename_i hm
      have ih' := hff (by rw [hm]; simp)
      split
      · rename_i i is _
        cases hh : r.tables.handle i with
        | none => exact ⟨true, by simp, .fail ih' hh⟩
        | some x =>
          obtain ⟨t, ds, p⟩ := x
          exact ⟨false, by simp [hm], by simpa [List.append_assoc] using Gen.read ih' hh⟩
      · exact ⟨false, by simp, .step ih'⟩
    · rename_i hm
      have ih' := hff (by rw [hm]; simp)
      split
      · exact ⟨false, by simp [hm], .ask ih'⟩
      · split
        · exact ⟨false, by simp, ih'⟩
        · split
          · exact ⟨false, by simp [hm], .step ih'⟩
          · exact ⟨false, by simp, ih'⟩
    · exact ⟨f, hf, ih⟩
    · exact ⟨f, hf, ih⟩

/-! ## Splitting -/

/-- Heads of pieces. -/
def isHead : Obs V C U P → Bool
  | .tell _ | .add _ => false
  | _ => true

/-- A list split at a head is split in the old part, or at the head of the new piece. -/
theorem split_head {tr pre post X : List (Obs V C U P)} {x y : Obs V C U P} (hX : ∀ z ∈ X, isHead z = false) (hx : isHead x = true) (h : tr ++ y :: X = pre ++ x :: post) :
    (pre = tr ∧ x = y ∧ post = X) ∨ ∃ c, tr = pre ++ x :: c ∧ post = c ++ y :: X := by
  rcases List.append_eq_append_iff.1 h with ⟨a, h1, h2⟩ | ⟨c, h1, h2⟩
  · cases a with
    | nil => simp only [List.append_nil, List.nil_append, List.cons.injEq] at h1 h2; exact .inl ⟨h1, h2.1.symm, h2.2.symm⟩
    | cons z a =>
      simp only [List.cons_append, List.cons.injEq] at h2
      have := hX x (by rw [h2.2]; simp)
      rw [hx] at this; cases this
  · cases c with
    | nil => simp only [List.append_nil, List.nil_append, List.cons.injEq] at h1 h2; exact .inl ⟨h1.symm, h2.1, h2.2⟩
    | cons z c =>
      simp only [List.cons_append, List.cons.injEq] at h2
      obtain ⟨rfl, rfl⟩ := h2
      exact .inr ⟨c, h1, rfl⟩

/-- A list split inside a piece. -/
theorem split_tail {tr pre post X : List (Obs V C U P)} {x y : Obs V C U P} (hy : isHead y = true) (hx : isHead x = false) (h : tr ++ y :: X = pre ++ x :: post) :
    (∃ a, pre = tr ++ y :: a ∧ X = a ++ x :: post) ∨ ∃ c, tr = pre ++ x :: c ∧ post = c ++ y :: X := by
  rcases List.append_eq_append_iff.1 h with ⟨a, h1, h2⟩ | ⟨c, h1, h2⟩
  · cases a with
    | nil => simp only [List.nil_append, List.cons.injEq] at h2; rw [h2.1, hx] at hy; cases hy
    | cons z a =>
      simp only [List.cons_append, List.cons.injEq] at h2
      exact .inl ⟨a, by rw [h1, h2.1], h2.2⟩
  · cases c with
    | nil => simp only [List.nil_append, List.cons.injEq] at h2; rw [← h2.1, hx] at hy; cases hy
    | cons z c =>
      simp only [List.cons_append, List.cons.injEq] at h2
      obtain ⟨rfl, rfl⟩ := h2
      exact .inr ⟨c, h1, rfl⟩

theorem tells_tail (ds : List (Tell V C U)) (p : Option P) : ∀ z ∈ ds.map Obs.tell ++ p.toList.map Obs.add, isHead z = false := by
  intro z hz
  simp only [List.mem_append, List.mem_map] at hz
  rcases hz with ⟨_, _, rfl⟩ | ⟨_, _, rfl⟩ <;> rfl

theorem tells_tail' (ds : List (Tell V C U)) : ∀ z ∈ ds.map (Obs.tell (P := P)), isHead z = false := by
  intro z hz
  simp only [List.mem_map] at hz
  rcases hz with ⟨_, _, rfl⟩; rfl

/-- What follows an item that was read. -/
theorem Gen.at_read {text : State V → V} {zero : V} {tr : List (Obs V C U P)} {t : Tables V C U} {f : Bool} (h : Gen text zero tr t f) : ∀ {pre post i}, tr = pre ++ .read i :: post →
    ∃ t0, Gen text zero pre t0 false ∧ ((t0.handle i = none ∧ post = [] ∧ f = true) ∨
      ∃ t' ds p post', t0.handle i = some (t', ds, p) ∧ post = ds.map .tell ++ p.toList.map .add ++ post') := by
  induction h with
  | nil => intro pre post i h; simp at h
  | @read tr t j t' ds p hg hh ih =>
    intro pre post i h
    rcases split_head (tells_tail _ _) rfl h with ⟨rfl, h1, rfl⟩ | ⟨c, h1, rfl⟩
    · cases h1; exact ⟨t, hg, .inr ⟨t', ds, p, [], hh, by simp⟩⟩
    · obtain ⟨t0, g1, ⟨_, _, g⟩ | ⟨t1, ds1, p1, q, g2, rfl⟩⟩ := ih h1
      · cases g
      · exact ⟨t0, g1, .inr ⟨t1, ds1, p1, _, g2, by rw [List.append_assoc]⟩⟩
  | @fail tr t j hg hh ih =>
    intro pre post i h
    rcases split_head (by simp) rfl h with ⟨rfl, h1, rfl⟩ | ⟨c, h1, rfl⟩
    · cases h1; exact ⟨t, hg, .inl ⟨hh, rfl, rfl⟩⟩
    · obtain ⟨t0, g1, ⟨_, _, g⟩ | ⟨t1, ds1, p1, q, g2, rfl⟩⟩ := ih h1
      · cases g
      · exact ⟨t0, g1, .inr ⟨t1, ds1, p1, _, g2, by rw [List.append_assoc]⟩⟩
  | @ask tr t a hg ih =>
    intro pre post i h
    rcases split_head (tells_tail' _) rfl h with ⟨rfl, h1, rfl⟩ | ⟨c, h1, rfl⟩
    · cases h1
    · obtain ⟨t0, g1, ⟨_, _, g⟩ | ⟨t1, ds1, p1, q, g2, rfl⟩⟩ := ih h1
      · cases g
      · exact ⟨t0, g1, .inr ⟨t1, ds1, p1, _, g2, by rw [List.append_assoc]⟩⟩
  | @step tr t hg ih =>
    intro pre post i h
    rcases split_head (by simp) rfl h with ⟨rfl, h1, rfl⟩ | ⟨c, h1, rfl⟩
    · cases h1
    · obtain ⟨t0, g1, ⟨_, _, g⟩ | ⟨t1, ds1, p1, q, g2, rfl⟩⟩ := ih h1
      · cases g
      · exact ⟨t0, g1, .inr ⟨t1, ds1, p1, _, g2, by rw [List.append_assoc]⟩⟩

/-- What follows something asked for. -/
theorem Gen.at_ask {text : State V → V} {zero : V} {tr : List (Obs V C U P)} {t : Tables V C U} {f : Bool} (h : Gen text zero tr t f) : ∀ {pre post a}, tr = pre ++ .ask a :: post →
    ∃ t0 post', Gen text zero pre t0 false ∧ post = (t0.asked text a).2.map .tell ++ post' := by
  induction h with
  | nil => intro pre post i h; simp at h
  | @read tr t j t' ds p hg hh ih =>
    intro pre post i h
    rcases split_head (tells_tail _ _) rfl h with ⟨rfl, h1, rfl⟩ | ⟨c, h1, rfl⟩
    · cases h1
    · obtain ⟨t0, q, g1, rfl⟩ := ih h1
      exact ⟨t0, _, g1, by rw [List.append_assoc]⟩
  | @fail tr t j hg hh ih =>
    intro pre post i h
    rcases split_head (by simp) rfl h with ⟨rfl, h1, rfl⟩ | ⟨c, h1, rfl⟩
    · cases h1
    · obtain ⟨t0, q, g1, rfl⟩ := ih h1
      exact ⟨t0, _, g1, by rw [List.append_assoc]⟩
  | @ask tr t a hg ih =>
    intro pre post i h
    rcases split_head (tells_tail' _) rfl h with ⟨rfl, h1, rfl⟩ | ⟨c, h1, rfl⟩
    · cases h1; exact ⟨t, [], hg, by simp⟩
    · obtain ⟨t0, q, g1, rfl⟩ := ih h1
      exact ⟨t0, _, g1, by rw [List.append_assoc]⟩
  | @step tr t hg ih =>
    intro pre post i h
    rcases split_head (by simp) rfl h with ⟨rfl, h1, rfl⟩ | ⟨c, h1, rfl⟩
    · cases h1
    · obtain ⟨t0, q, g1, rfl⟩ := ih h1
      exact ⟨t0, _, g1, by rw [List.append_assoc]⟩

theorem map_tell_split {ds : List (Tell V C U)} {p : Option P} {a post : List (Obs V C U P)} {d : Tell V C U} (h : ds.map Obs.tell ++ p.toList.map Obs.add = a ++ .tell d :: post) :
    ∃ d1 d2, ds = d1 ++ d :: d2 ∧ a = d1.map .tell := by
  induction ds generalizing a with
  | nil => cases p <;> (cases a <;> simp at h)
  | cons e ds ih =>
    cases a with
    | nil => simp only [List.map_cons, List.cons_append, List.nil_append, List.cons.injEq, Obs.tell.injEq] at h; exact ⟨[], ds, by rw [h.1]; rfl, rfl⟩
    | cons z a =>
      simp only [List.map_cons, List.cons_append, List.cons.injEq] at h
      obtain ⟨d1, d2, rfl, rfl⟩ := ih h.2
      exact ⟨e :: d1, d2, rfl, by rw [← h.1]; rfl⟩

/-- Why something is told. -/
theorem Gen.at_tell {text : State V → V} {zero : V} {tr : List (Obs V C U P)} {t : Tables V C U} {f : Bool} (h : Gen text zero tr t f) : ∀ {pre post d}, tr = pre ++ .tell d :: post →
    ∃ pre0 t0 d1 d2, Gen text zero pre0 t0 false ∧
      ((∃ i t' p, pre = pre0 ++ .read i :: d1.map .tell ∧ t0.handle i = some (t', d1 ++ d :: d2, p)) ∨
       ∃ a, pre = pre0 ++ .ask a :: d1.map .tell ∧ (t0.asked text a).2 = d1 ++ d :: d2) := by
  induction h with
  | nil => intro pre post i h; simp at h
  | @read tr t j t' ds p hg hh ih =>
    intro pre post d h
    rcases split_tail rfl rfl h with ⟨a, rfl, h1⟩ | ⟨c, h1, rfl⟩
    · obtain ⟨d1, d2, rfl, rfl⟩ := map_tell_split h1
      exact ⟨tr, t, d1, d2, hg, .inl ⟨j, t', p, rfl, hh⟩⟩
    · exact ih h1
  | @fail tr t j hg hh ih =>
    intro pre post d h
    rcases split_tail rfl rfl h with ⟨a, rfl, h1⟩ | ⟨c, h1, rfl⟩
    · simp at h1
    · exact ih h1
  | @ask tr t a hg ih =>
    intro pre post d h
    rcases split_tail rfl rfl h with ⟨a', rfl, h1⟩ | ⟨c, h1, rfl⟩
    · obtain ⟨d1, d2, h2, rfl⟩ := map_tell_split (p := none) (by simpa using h1)
      exact ⟨tr, t, d1, d2, hg, .inr ⟨a, rfl, h2⟩⟩
    · exact ih h1
  | @step tr t hg ih =>
    intro pre post d h
    rcases split_tail rfl rfl h with ⟨a', rfl, h1⟩ | ⟨c, h1, rfl⟩
    · simp at h1
    · exact ih h1

/-! ## The tables -/

theorem latest_append {α β : Type} (f : β → Option α) (l m : List β) : latest f (l ++ m) = (latest f m).or (latest f l) := by
  simp [latest, List.findSome?_append]

theorem latest_nil {α β : Type} (f : β → Option α) : latest f [] = none := rfl

theorem latest_cons {α β : Type} (f : β → Option α) (x : β) (m : List β) : latest f (x :: m) = (latest f m).or (f x) := by
  rw [← List.singleton_append, latest_append]; simp [latest]

theorem latest_none {α β : Type} {f : β → Option α} {l : List β} (h : ∀ x ∈ l, f x = none) : latest f l = none := by
  simp only [latest, List.findSome?_eq_none_iff, List.mem_reverse]; exact h

theorem latest_tells {α : Type} {f : Obs V C U P → Option α} (hf : ∀ d, f (.tell d) = none) (hp : ∀ p, f (.add p) = none) (ds : List (Tell V C U)) (p : Option P) :
    latest f (ds.map .tell ++ p.toList.map .add) = none :=
  latest_none fun x hx => by
    simp only [List.mem_append, List.mem_map] at hx
    rcases hx with ⟨_, _, rfl⟩ | ⟨_, _, rfl⟩
    · exact hf _
    · exact hp _

/-- A piece: only its head counts. -/
theorem latest_piece {α : Type} {f : Obs V C U P → Option α} (hf : ∀ d, f (.tell d) = none) (hp : ∀ p, f (.add p) = none) (tr : List (Obs V C U P)) (x : Obs V C U P)
    (ds : List (Tell V C U)) (p : Option P) : latest f (tr ++ x :: (ds.map .tell ++ p.toList.map .add)) = (f x).or (latest f tr) := by
  rw [latest_append, latest_cons, latest_tells hf hp]; rfl

theorem latest_piece' {α : Type} {f : Obs V C U P → Option α} (hf : ∀ d, f (.tell d) = none) (tr : List (Obs V C U P)) (x : Obs V C U P)
    (ds : List (Tell V C U)) : latest f (tr ++ x :: ds.map .tell) = (f x).or (latest f tr) := by
  rw [latest_append, latest_cons, latest_none (l := ds.map Obs.tell)]
  · rfl
  · intro x hx; simp only [List.mem_map] at hx; obtain ⟨_, _, rfl⟩ := hx; exact hf _

theorem waits_tells (n : String) (ds : List (Tell V C U)) (p : Option P) (w : Option U) : (ds.map Obs.tell ++ p.toList.map Obs.add).foldl (waits (V := V) n) w = w := by
  induction ds with
  | nil => cases p <;> rfl
  | cons d ds ih => simpa [waits] using ih

theorem waiting_piece (n : String) (tr : List (Obs V C U P)) (x : Obs V C U P) (ds : List (Tell V C U)) (p : Option P) :
    waiting n (tr ++ x :: (ds.map .tell ++ p.toList.map .add)) = waits n (waiting n tr) x := by
  unfold waiting
  rw [List.foldl_append, List.foldl_cons, waits_tells]

theorem waiting_piece' (n : String) (tr : List (Obs V C U P)) (x : Obs V C U P) (ds : List (Tell V C U)) :
    waiting n (tr ++ x :: ds.map .tell) = waits n (waiting n tr) x := by
  simpa using waiting_piece n tr x ds none

/-- Not one of the commands TestExec performs itself. -/
theorem builtin_none {st : State V} : builtin st = none ↔ st.name ∉ ["print", "pprint", "printToString", "pprintToString"] := by
  unfold builtin
  by_cases h1 : st.name = "print" ∨ st.name = "pprint"
  · rw [if_pos h1]; simp only [List.mem_cons]; constructor
    · intro h; cases h
    · intro h; exact absurd (h1.elim .inl fun h => .inr (.inl h)) h
  · rw [if_neg h1]
    by_cases h2 : st.name = "printToString" ∨ st.name = "pprintToString"
    · rw [if_pos h2]; simp only [List.mem_cons]; constructor
      · intro h; cases h
      · intro h; exact absurd (.inr (.inr (h2.elim .inl fun h => .inr (.inl h)))) h
    · rw [if_neg h2]; simp_all

/-- The tables, in terms of what has happened. -/
structure Known (zero : V) (tr : List (Obs V C U P)) (t : Tables V C U) : Prop where
  acks : ∀ st, t.acks st = latest (sends st) tr
  executing : ∀ st, t.executing st = (latest (expects st) tr).join
  aborting : ∀ st, t.aborting st = (latest (aborts st) tr).join
  updates : ∀ n, t.updates n = waiting n tr
  states : ∀ st, (t.states st).join = valueOf zero st tr

theorem or_join {α : Type} (a b : Option (Option α)) : (a.or b).join = match a with | some x => x | none => b.join := by cases a <;> rfl

theorem known_read {zero : V} {tr : List (Obs V C U P)} {t t' : Tables V C U} {i ds} {p : Option P} (k : Known zero tr t) (h : t.handle i = some (t', ds, p)) :
    Known zero (tr ++ .read i :: (ds.map .tell ++ p.toList.map .add)) t' := by
  have key : ∀ (x : Obs V C U P), (∀ st, t'.acks st = ((sends st x).or (latest (sends st) tr))) → (∀ st, t'.executing st = ((expects st x).or (latest (expects st) tr)).join) →
      (∀ st, t'.aborting st = ((aborts st x).or (latest (aborts st) tr)).join) → (∀ n, t'.updates n = waits n (waiting n tr) x) →
      (∀ st, (t'.states st).join = match gives st x with | some v => v | none => valueOf zero st tr) →
      Known zero (tr ++ x :: (ds.map .tell ++ p.toList.map .add)) t' := by
    intro x h1 h2 h3 h4 h5
    refine ⟨fun st => ?_, fun st => ?_, fun st => ?_, fun n => ?_, fun st => ?_⟩
    · rw [latest_piece (fun _ => rfl) (fun _ => rfl)]; exact h1 st
    · rw [latest_piece (fun _ => rfl) (fun _ => rfl)]; exact h2 st
    · rw [latest_piece (fun _ => rfl) (fun _ => rfl)]; exact h3 st
    · rw [waiting_piece]; exact h4 n
    · rw [h5 st]
      simp only [valueOf, latest_piece (f := gives st) (fun _ => rfl) (fun _ => rfl)]
      cases gives st x <;> rfl
  refine key _ ?_ ?_ ?_ ?_ ?_
  all_goals
    cases i with
    | value st v => cases h; intro x; simp [sends, expects, aborts, gives, waits, put, k.acks, k.executing, k.aborting, k.updates, k.states, eq_comm]; try (split <;> simp_all [k.states])
    | result st v =>
      simp only [Tables.handle] at h
      split at h
      · cases h
      · cases h; intro x; simp [sends, expects, aborts, gives, waits, put, k.acks, k.executing, k.aborting, k.updates, k.states, eq_comm]
        try (split <;> simp_all [k.executing])
    | ack st v =>
      simp only [Tables.handle] at h
      split at h
      · cases h
      · cases h; intro x; simp [sends, expects, aborts, gives, waits, put, k.acks, k.executing, k.aborting, k.updates, k.states, eq_comm]
    | abortAck st b =>
      cases b with
      | none => cases h
      | some b =>
        simp only [Tables.handle] at h
        split at h
        · cases h
        · cases h; intro x; simp [sends, expects, aborts, gives, waits, put, k.acks, k.executing, k.aborting, k.updates, k.states, eq_comm]
          try (split <;> simp_all [k.aborting])
    | updateAck n =>
      simp only [Tables.handle] at h
      split at h
      · cases h
      · cases h; intro x; simp [sends, expects, aborts, gives, waits, put, k.acks, k.executing, k.aborting, k.updates, k.states, eq_comm]
    | sendPlan f => cases h; intro x; simp [sends, expects, aborts, gives, waits, put, k.acks, k.executing, k.aborting, k.updates, k.states, eq_comm]
    | nothing => cases h; intro x; simp [sends, expects, aborts, gives, waits, put, k.acks, k.executing, k.aborting, k.updates, k.states, eq_comm]
    | bad => cases h

theorem known_ask {text : State V → V} {zero : V} {tr : List (Obs V C U P)} {t : Tables V C U} (a : Ask V C U) (k : Known zero tr t) :
    Known zero (tr ++ .ask a :: (t.asked text a).2.map .tell) (t.asked text a).1 := by
  generalize hds : (t.asked text a).2 = ds
  generalize ht : (t.asked text a).1 = t'
  have hh : t.asked text a = (t', ds) := by rw [← hds, ← ht]
  have key : ∀ (x : Obs V C U P), (∀ st, t'.acks st = ((sends st x).or (latest (sends st) tr))) → (∀ st, t'.executing st = ((expects st x).or (latest (expects st) tr)).join) →
      (∀ st, t'.aborting st = ((aborts st x).or (latest (aborts st) tr)).join) → (∀ n, t'.updates n = waits n (waiting n tr) x) →
      (∀ st, (t'.states st).join = match gives st x with | some v => v | none => valueOf zero st tr) →
      Known zero (tr ++ x :: ds.map .tell) t' := by
    intro x h1 h2 h3 h4 h5
    refine ⟨fun st => ?_, fun st => ?_, fun st => ?_, fun n => ?_, fun st => ?_⟩
    · rw [latest_piece' (fun _ => rfl)]; exact h1 st
    · rw [latest_piece' (fun _ => rfl)]; exact h2 st
    · rw [latest_piece' (fun _ => rfl)]; exact h3 st
    · rw [waiting_piece']; exact h4 n
    · rw [h5 st]
      simp only [valueOf, latest_piece' (f := gives st) (fun _ => rfl)]
      cases gives st x <;> rfl
  refine key _ ?_ ?_ ?_ ?_ ?_
  all_goals
    cases a with
    | lookup st =>
      simp only [Tables.asked] at hh
      split at hh
      · rename_i hn
        cases hh; intro x; simp [sends, expects, aborts, gives, waits, put, k.acks, k.executing, k.aborting, k.updates, k.states, eq_comm]
        try (split <;> simp_all [← k.states])
      · cases hh; intro x; simp [sends, expects, aborts, gives, waits, put, k.acks, k.executing, k.aborting, k.updates, k.states, eq_comm]
    | execute c st ret =>
      simp only [Tables.asked] at hh
      cases hb : builtin st with
      | some b =>
        have hb' : ¬ st.name ∉ ["print", "pprint", "printToString", "pprintToString"] := fun h => by rw [← builtin_none, hb] at h; cases h
        rw [hb] at hh
        cases b <;> (cases hh; intro x; cases ret <;> first
          | (by_cases hx : st = x
             · subst hx; simp only [sends, expects, hb', and_false, if_false, Option.none_or]; simp [aborts, gives, waits, k.acks, k.executing, k.aborting, k.updates, k.states]
             · simp [sends, expects, hx, aborts, gives, waits, k.acks, k.executing, k.aborting, k.updates, k.states])
          | simp [sends, expects, aborts, gives, waits, k.acks, k.executing, k.aborting, k.updates, k.states])
      | none =>
        have hb' := builtin_none.1 hb
        rw [hb] at hh
        cases hh; intro x; cases ret <;> first
          | (by_cases hx : st = x
             · subst hx; simp only [sends, expects, hb', and_true, not_false_eq_true, if_true]; simp [aborts, gives, waits, put, k.acks, k.executing, k.aborting, k.updates, k.states]
             · simp [sends, expects, hx, Ne.symm hx, put, aborts, gives, waits, k.acks, k.executing, k.aborting, k.updates, k.states])
          | simp [sends, expects, aborts, gives, waits, k.acks, k.executing, k.aborting, k.updates, k.states]
    | deny c => cases hh; intro x; simp [sends, expects, aborts, gives, waits, put, k.acks, k.executing, k.aborting, k.updates, k.states, eq_comm]
    | abort c st =>
      cases hh; intro x; simp [sends, expects, aborts, gives, waits, put, k.acks, k.executing, k.aborting, k.updates, k.states, eq_comm]
      try (split <;> simp_all [k.aborting])
    | update u n =>
      cases hh; intro x
      first
        | simp [sends, expects, aborts, gives, k.acks, k.executing, k.aborting, k.states]; done
        | (by_cases hx : n = x
           · subst hx; cases hw : waiting n tr <;> simp [waits, put, k.updates, hw]
           · cases hw : waiting n tr <;> simp [waits, put, k.updates, hw, hx, Ne.symm hx])

theorem Gen.known {text : State V → V} {zero : V} {tr : List (Obs V C U P)} {t : Tables V C U} {f : Bool} (h : Gen text zero tr t f) : f = false → Known zero tr t := by
  induction h with
  | nil =>
    intro _
    refine ⟨fun _ => rfl, fun _ => rfl, fun _ => rfl, fun _ => rfl, fun st => ?_⟩
    by_cases h : st = ⟨"time", []⟩ <;> simp [Tables.init, valueOf, latest_nil, timeState, h]
  | read hg hh ih => intro _; exact known_read (ih rfl) hh
  | fail hg hh ih => intro h; cases h
  | ask hg ih => intro _; exact known_ask _ (ih rfl)
  | @step tr t hg ih =>
    intro _
    have k := ih rfl
    refine ⟨fun st => ?_, fun st => ?_, fun st => ?_, fun n => ?_, fun st => ?_⟩
    · rw [latest_append, k.acks]; rfl
    · rw [latest_append, k.executing]; rfl
    · rw [latest_append, k.aborting]; rfl
    · rw [k.updates]; simp [waiting, waits]
    · rw [k.states]; simp only [valueOf, latest_append]; rfl

end Verif.Script
