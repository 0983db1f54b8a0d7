import Verif.Message.Lemmas
set_option autoImplicit false
/-!
C86-C88: messages.
-/
namespace Verif.Message
open Verif.Value Verif.Cache
open Verif.Keys (State)

variable {text : Value → Str}

theorem run_snoc (evs : List Ev) (ev : Ev) : Sys.run text (evs ++ [ev]) = (Sys.run text evs).bind (fun s => s.step text ev) := by
  unfold Sys.run
  rw [List.foldlM_append]
  cases List.foldlM (Sys.step text) {} evs <;> simp

/-! ### C86: the head of the queue -/

/-- The last thing said about the head of the queue: nothing yet, or the head. -/
def effect (it : Item) (shown : Option (Option Msg)) : Option (Option Msg) :=
  match it with
  | .received m => some (some m)
  | .empty => some none
  | _ => shown

/-- What the input queue leaves. -/
def after (its : List Item) (shown : Option (Option Msg)) : Option (Option Msg) := its.foldl (fun sh it => effect it sh) shown

/-- The cells of the three states. -/
def Showing (c : Cache) : Option (Option Msg) → Prop
  | none => c.cell haveMessage = none ∧ c.cell peekAtMessage = none ∧ c.cell peekAtMessageSender = none
  | some none => c.cell haveMessage = some (.typed .boolean (some (.bool false))) ∧ (c.cell peekAtMessage = none ∨ c.cell peekAtMessage = some (.typed .string none)) ∧
      (c.cell peekAtMessageSender = none ∨ c.cell peekAtMessageSender = some (.typed .string none))
  | some (some m) => c.cell haveMessage = some (.typed .boolean (some (.bool true))) ∧ c.cell peekAtMessage = some (.typed .string (some (.str m.name))) ∧
      c.cell peekAtMessageSender = some (.typed .string (some (.str m.sender)))

theorem showing_shows {c : Cache} {q : Option Msg} (h : Showing c (some q)) : Shows c q := by
  unfold Shows
  simp only [read_cell]
  cases q with
  | none => obtain ⟨h1, h2, h3⟩ := h; refine ⟨by rw [h1]; rfl, ?_, ?_⟩
            · rcases h2 with h2 | h2 <;> rw [h2] <;> rfl
            · rcases h3 with h3 | h3 <;> rw [h3] <;> rfl
  | some m => obtain ⟨h1, h2, h3⟩ := h; rw [h1, h2, h3]; exact ⟨rfl, rfl, rfl⟩

theorem showing_ready {c : Cache} {sh : Option (Option Msg)} (h : Showing c sh) :
    (c.cell haveMessage = none ∨ ∃ v, c.cell haveMessage = some (.typed .boolean v) ∧ ∀ q, v = some q → q.type = .boolean) ∧
    (c.cell peekAtMessage = none ∨ ∃ v, c.cell peekAtMessage = some (.typed .string v) ∧ ∀ q, v = some q → q.type = .string) ∧
    (c.cell peekAtMessageSender = none ∨ ∃ v, c.cell peekAtMessageSender = some (.typed .string v) ∧ ∀ q, v = some q → q.type = .string) := by
  match sh, h with
  | none, ⟨h1, h2, h3⟩ => exact ⟨Or.inl h1, Or.inl h2, Or.inl h3⟩
  | some none, ⟨h1, h2, h3⟩ =>
    refine ⟨Or.inr ⟨_, h1, by rintro _ ⟨⟩; rfl⟩, h2.imp id (fun h => ⟨_, h, by simp⟩), h3.imp id (fun h => ⟨_, h, by simp⟩)⟩
  | some (some m), ⟨h1, h2, h3⟩ =>
    exact ⟨Or.inr ⟨_, h1, by rintro _ ⟨⟩; rfl⟩, Or.inr ⟨_, h2, by rintro _ ⟨⟩; rfl⟩, Or.inr ⟨_, h3, by rintro _ ⟨⟩; rfl⟩⟩

theorem ne_hp : haveMessage ≠ peekAtMessage := by decide
theorem ne_hs : haveMessage ≠ peekAtMessageSender := by decide
theorem ne_ps : peekAtMessage ≠ peekAtMessageSender := by decide

theorem received_showing {c : Cache} {sh : Option (Option Msg)} (h : Showing c sh) (m : Msg) :
    ∃ c', messageReceived c m = some c' ∧ Showing c' (some (some m)) := by
  obtain ⟨a, b, d⟩ := showing_ready h
  obtain ⟨c1, h1, k1⟩ := cell_update_exact (p := .bool true) (t := .boolean) rfl rfl (exact_bool _) a
  have b1 := b; rw [← cell_update_other h1 ne_hp.symm] at b1
  obtain ⟨c2, h2, k2⟩ := cell_update_exact (p := .str m.name) (t := .string) rfl rfl (exact_str _) b1
  have d1 := d; rw [← cell_update_other h1 ne_hs.symm, ← cell_update_other h2 ne_ps.symm] at d1
  obtain ⟨c3, h3, k3⟩ := cell_update_exact (p := .str m.sender) (t := .string) rfl rfl (exact_str _) d1
  refine ⟨c3, ?_, ?_, ?_, k3⟩
  · unfold messageReceived sv
    rw [h1, Option.bind_some, h2, Option.bind_some, h3]
  · rw [cell_update_other h3 ne_hs, cell_update_other h2 ne_hp, k1]
  · rw [cell_update_other h3 ne_ps, k2]

theorem empty_showing {c : Cache} {sh : Option (Option Msg)} (h : Showing c sh) : ∃ c', messageQueueEmpty c = some c' ∧ Showing c' (some none) := by
  obtain ⟨a, b, d⟩ := showing_ready h
  obtain ⟨c1, h1, k1⟩ := cell_update_exact (p := .bool false) (t := .boolean) rfl rfl (exact_bool _) a
  have un : ∀ (c : Cache) (s : State), (c.cell s = none ∨ ∃ v, c.cell s = some (.typed .string v) ∧ ∀ q, v = some q → q.type = VType.string) →
      ((c.setUnknown s).cell s = none ∨ (c.setUnknown s).cell s = some (.typed .string none)) := by
    intro c s hh
    rcases hh with hh | ⟨v, hh, _⟩
    · left
      unfold Cache.setUnknown
      rw [cell_set, if_pos rfl]
      rw [← entry_value] at hh
      simp [Entry.setUnknown, hh]
    · right; exact cell_setUnknown hh
  refine ⟨_, by unfold messageQueueEmpty; rw [h1]; rfl, ?_, ?_, ?_⟩
  · rw [cell_setUnknown_other _ _ ne_hs, cell_setUnknown_other _ _ ne_hp, k1]
  · rw [cell_setUnknown_other _ _ ne_ps]
    exact un _ _ (by rw [cell_update_other h1 ne_hp.symm]; exact b)
  · exact un _ _ (by rw [cell_setUnknown_other _ _ ne_ps.symm, cell_update_other h1 ne_hs.symm]; exact d)

theorem showing_congr {c c' : Cache} {sh : Option (Option Msg)} (h : Showing c sh) (e : ∀ s, QueueState s → c'.cell s = c.cell s) : Showing c' sh := by
  have e1 := e _ (Or.inl rfl); have e2 := e _ (Or.inr (Or.inl rfl)); have e3 := e _ (Or.inr (Or.inr rfl))
  match sh, h with
  | none, h => unfold Showing; rw [e1, e2, e3]; exact h
  | some none, h => unfold Showing; rw [e1, e2, e3]; exact h
  | some (some m), h => unfold Showing; rw [e1, e2, e3]; exact h

/-- Names of the message data states differ from those of the queue states. -/
theorem queue_not_data {s : State} (hq : QueueState s) (h : Str) : ¬ DataState h s := by
  have n : ∀ t, DataState h t → t.params ≠ [] := by rintro t (rfl | rfl | rfl | rfl | ⟨i, rfl⟩) <;> simp [textState, countState, senderState, arrivedState, paramState]
  intro hd
  apply n s hd
  rcases hq with rfl | rfl | rfl <;> rfl

theorem release_cell {c c' : Cache} {h : Str} (hr : releaseMessageHandle c h = some c') {s : State} (hs : ¬ DataState h s) : c'.cell s = c.cell s := by
  have n1 : s ≠ textState h := fun e => hs (Or.inl e)
  have n2 : s ≠ countState h := fun e => hs (Or.inr (Or.inl e))
  have n3 : s ≠ senderState h := fun e => hs (Or.inr (Or.inr (Or.inl e)))
  have n4 : s ≠ arrivedState h := fun e => hs (Or.inr (Or.inr (Or.inr (Or.inl e))))
  have n5 : ∀ i, s ≠ paramState h i := fun i e => hs (Or.inr (Or.inr (Or.inr (Or.inr ⟨i, e⟩))))
  unfold releaseMessageHandle at hr
  split at hr
  · cases hr; rfl
  · split at hr
    · cases hr
    · cases hr; rfl
    · cases hr; rfl
    · split at hr
      · cases hr; rfl
      · cases hr
        rw [cell_delete_other _ n4, cell_delete_other _ n3, cell_delete_other _ n1, cell_deleteParams_other _ _ _ n5, cell_set, if_neg n2]
    · cases hr

/-- No value of another adapter for these states is in the input queue, and no accepted message. -/
def InputOk (P : State → Prop) (its : List Item) : Prop := ∀ it ∈ its, (∀ s v, it = .value s v → ¬ P s) ∧ ∀ m h, it ≠ .accept m h

theorem item_showing {s s' : Sys} {it : Item} {sh : Option (Option Msg)} (h : Showing s.cache sh) (hv : ∀ t v, it = .value t v → ¬ QueueState t)
    (ha : ∀ m h, it ≠ .accept m h) (hs : s.item it = some s') : Showing s'.cache (effect it sh) ∧ s'.queue = s.queue ∧ s'.input = s.input := by
  cases it with
  | received m =>
    obtain ⟨c', h1, h2⟩ := received_showing h m
    simp only [Sys.item, h1, Option.map_some, Option.some.injEq] at hs; subst hs; exact ⟨h2, rfl, rfl⟩
  | empty =>
    obtain ⟨c', h1, h2⟩ := empty_showing h
    simp only [Sys.item, h1, Option.map_some, Option.some.injEq] at hs; subst hs; exact ⟨h2, rfl, rfl⟩
  | accept m h => exact absurd rfl (ha m h)
  | release hh =>
    simp only [Sys.item] at hs
    obtain ⟨c', h1, rfl⟩ := Option.map_eq_some_iff.mp hs
    exact ⟨showing_congr h (fun t ht => release_cell h1 (queue_not_data ht hh)), rfl, rfl⟩
  | ack c n => simp only [Sys.item, Option.some.injEq] at hs; subst hs; exact ⟨h, rfl, rfl⟩
  | ret c v => simp only [Sys.item, Option.some.injEq] at hs; subst hs; exact ⟨h, rfl, rfl⟩
  | value t v =>
    simp only [Sys.item] at hs
    obtain ⟨c', h1, rfl⟩ := Option.map_eq_some_iff.mp hs
    exact ⟨showing_congr h (fun u hu => cell_update_other h1 (fun e => hv t v rfl (e ▸ hu))), rfl, rfl⟩

theorem items_showing : ∀ (its : List Item) {s s' : Sys} {sh : Option (Option Msg)}, Showing s.cache sh → InputOk QueueState its → its.foldlM Sys.item s = some s' →
    Showing s'.cache (after its sh) ∧ s'.queue = s.queue ∧ s'.input = s.input
  | [], s, s', sh, h, _, hs => by simp at hs; subst hs; exact ⟨h, rfl, rfl⟩
  | it :: its, s, s', sh, h, ho, hs => by
    rw [List.foldlM_cons] at hs
    obtain ⟨s1, h1, h2⟩ := Option.bind_eq_some_iff.mp hs
    obtain ⟨a, b, d⟩ := item_showing h (ho it (by simp)).1 (ho it (by simp)).2 h1
    obtain ⟨a', b', d'⟩ := items_showing its a (fun x hx => ho x (by simp [hx])) h2
    exact ⟨a', by rw [b', b], by rw [d', d]⟩

theorem inputOk_append {P : State → Prop} {a b : List Item} (ha : InputOk P a) (hb : InputOk P b) : InputOk P (a ++ b) := by
  intro it hi
  rcases List.mem_append.mp hi with h | h
  · exact ha it h
  · exact hb it h

/-- Nothing the handlers post is a value of a state or an accepted message. -/
theorem execute_ok (P : State → Prop) (q : List Msg) (k : Kind) (cmd : Nat) (args : List Value) : InputOk P (execute text q k cmd args).2 := by
  have hc : ∀ b h, InputOk P (complain b cmd h) := by
    intro b h; unfold complain; split
    · intro it hi; simp at hi; subst hi; simp
    · intro it hi; simp at hi
  have ha : InputOk P [.ack cmd Command.success] := by intro it hi; simp at hi; subst hi; simp
  have hr : ∀ h, InputOk P (notifyMessageHandleReleased h) := by
    intro h; unfold notifyMessageHandleReleased; split
    · intro it hi; simp at hi
    · intro it hi; simp at hi; subst hi; simp
  cases k with
  | get =>
    simp only [execute]
    unfold acceptMessage
    split
    · intro it hi; simp at hi; rcases hi with rfl | rfl <;> simp
    · intro it hi
      simp only [notifyMessageAccepted, if_true, List.nil_append, List.mem_append, List.mem_singleton] at hi
      split at hi
      · simp at hi; rcases hi with (rfl | rfl) | rfl <;> simp
      · simp at hi; rcases hi with (rfl | rfl) | rfl <;> simp
  | release => exact inputOk_append (inputOk_append (inputOk_append (inputOk_append (hc _ _) (hc _ _)) (hc _ _)) (hr _)) ha
  | publish => exact inputOk_append (inputOk_append (inputOk_append (hc _ _) (hc _ _)) (hc _ _)) ha
  | send => exact inputOk_append (inputOk_append (inputOk_append (inputOk_append (inputOk_append (hc _ _) (hc _ _)) (hc _ _)) (hc _ _)) (hc _ _)) ha

theorem after_append (a b : List Item) (sh : Option (Option Msg)) : after (a ++ b) sh = after b (after a sh) := by simp [after, List.foldl_append]

theorem waiting_snoc (evs : List Ev) (ev : Ev) : ∀ q, waiting (evs ++ [ev]) q = waiting [ev] (waiting evs q) := by
  induction evs with
  | nil => intro q; rfl
  | cons e evs ih =>
    intro q
    cases e with
    | execute k c a => cases k <;> simp only [List.cons_append, waiting, ih]
    | _ => simp only [List.cons_append, waiting, ih]

theorem complain_after (b : Bool) (cmd h : Nat) (sh : Option (Option Msg)) : after (complain b cmd h) sh = sh := by
  unfold complain; split <;> rfl

/-- The invariant behind C86. -/
def Inv (evs : List Ev) (s : Sys) : Prop :=
  s.queue = waiting evs [] ∧ InputOk QueueState s.input ∧
  ∃ sh, Showing s.cache sh ∧ (after s.input sh = some s.queue.head? ∨ (after s.input sh = none ∧ s.queue = [] ∧ ¬ Arrived evs))

theorem arrived_snoc {evs : List Ev} {ev : Ev} (h : ∀ m, ev ≠ .receive m) : Arrived (evs ++ [ev]) ↔ Arrived evs := by
  constructor
  · rintro ⟨m, hm⟩
    rcases List.mem_append.mp hm with hm | hm
    · exact ⟨m, hm⟩
    · simp at hm; exact absurd hm.symm (h m)
  · rintro ⟨m, hm⟩; exact ⟨m, List.mem_append.mpr (Or.inl hm)⟩

theorem inv_run (evs : List Ev) : ∀ s, Quiet QueueState evs → Sys.run text evs = some s → Inv evs s := by
  induction evs using List.reverseRecOn with
  | nil =>
    intro s _ h
    simp [Sys.run] at h
    subst h
    refine ⟨rfl, by intro it hi; simp at hi, none, ⟨rfl, rfl, rfl⟩, Or.inr ⟨rfl, rfl, by rintro ⟨m, hm⟩; simp at hm⟩⟩
  | append_singleton evs ev ih =>
    intro s hq h
    rw [run_snoc] at h
    obtain ⟨s0, h0, h1⟩ := Option.bind_eq_some_iff.mp h
    obtain ⟨hw, hin, sh, hsh, haf⟩ := ih s0 (fun t v hm => hq t v (List.mem_append.mpr (Or.inl hm))) h0
    unfold Inv
    rw [waiting_snoc, ← hw]
    cases ev with
    | receive m =>
      simp only [Sys.step, Option.some.injEq] at h1
      subst h1
      refine ⟨rfl, ?_, sh, hsh, Or.inl ?_⟩
      · refine inputOk_append hin ?_
        simp only [enqueueMessage]
        split
        · intro it hi; simp at hi; subst hi; simp
        · intro it hi; simp at hi
      · simp only
        rw [after_append]
        cases hqq : s0.queue with
        | nil => rfl
        | cons m0 r =>
          rw [hqq] at haf
          simp only [enqueueMessage]
          rcases haf with haf | ⟨_, h, _⟩
          · rw [haf]; rfl
          · cases h
    | execute k cmd args =>
      simp only [Sys.step, Option.some.injEq] at h1
      subst h1
      have har : ¬ Arrived (evs ++ [.execute k cmd args]) ↔ ¬ Arrived evs := not_congr (arrived_snoc (by simp))
      refine ⟨?_, inputOk_append hin (execute_ok _ _ _ _ _), sh, hsh, ?_⟩
      · cases k <;> simp only [execute, waiting]
        unfold acceptMessage
        split
        · rename_i hqq; rw [hqq]; rfl
        · rename_i hqq; rw [hqq]; rfl
      · simp only [after_append, har]
        cases k with
        | get =>
          simp only [execute]
          unfold acceptMessage
          split
          · rename_i hqq
            rw [hqq] at haf
            rcases haf with haf | ⟨a, b, d⟩
            · left; rw [haf]; rfl
            · right; rw [a]; exact ⟨rfl, rfl, d⟩
          · rename_i m0 r hqq
            left
            simp only [notifyMessageAccepted, if_true, List.nil_append]
            cases r with
            | nil => simp [after, effect]
            | cons m1 r => simp [after, effect]
        | release =>
          have : after (execute text s0.queue .release cmd args).2 (after s0.input sh) = after s0.input sh := by
            simp only [execute, releaseHandler, after_append, complain_after, notifyMessageHandleReleased]
            split <;> rfl
          rw [this]; exact haf
        | publish =>
          have : after (execute text s0.queue .publish cmd args).2 (after s0.input sh) = after s0.input sh := by
            simp only [execute, publishHandler, after_append, complain_after]; rfl
          rw [this]; exact haf
        | send =>
          have : after (execute text s0.queue .send cmd args).2 (after s0.input sh) = after s0.input sh := by
            simp only [execute, sendHandler, after_append, complain_after]; rfl
          rw [this]; exact haf
    | value t v =>
      simp only [Sys.step, Option.some.injEq] at h1
      subst h1
      refine ⟨rfl, inputOk_append hin ?_, sh, hsh, ?_⟩
      · intro it hi; simp at hi; subst hi
        refine ⟨?_, by simp⟩
        rintro t' v' ⟨⟩
        exact hq t v (by simp)
      · simp only [after_append]
        rw [not_congr (arrived_snoc (evs := evs) (ev := .value t v) (by simp))]
        exact haf
    | process =>
      simp only [Sys.step] at h1
      unfold Sys.process at h1
      obtain ⟨a, b, d⟩ := items_showing s0.input (s := { s0 with input := [] }) hsh hin h1
      refine ⟨by rw [b]; rfl, by rw [d]; intro it hi; simp at hi, _, a, ?_⟩
      rw [b, d, not_congr (arrived_snoc (evs := evs) (ev := .process) (by simp))]
      exact haf
    | register t =>
      simp only [Sys.step, Option.some.injEq] at h1
      subst h1
      refine ⟨rfl, hin, sh, showing_congr hsh (fun u _ => cell_register _ _ _), ?_⟩
      rw [not_congr (arrived_snoc (evs := evs) (ev := .register t) (by simp))]
      exact haf
    | unregister t =>
      simp only [Sys.step] at h1
      obtain ⟨c', hc, rfl⟩ := Option.map_eq_some_iff.mp h1
      refine ⟨rfl, hin, sh, showing_congr hsh (fun u _ => cell_unregister hc _), ?_⟩
      rw [not_congr (arrived_snoc (evs := evs) (ev := .unregister t) (by simp))]
      exact haf

/-- C86: once a message has arrived, whenever the exec has processed its input, HaveMessage tells whether a message is waiting, PeekAtMessage and PeekAtMessageSender
are text and sender of the first of the waiting messages, unknown if there is none – after any history of arrivals, commands, processing, lookups. -/
theorem c86_head_of_queue (evs : List Ev) (s : Sys) (h : Sys.run text (evs ++ [.process]) = some s) (hq : Quiet QueueState evs) (ha : Arrived evs) :
    Shows s.cache (waiting evs []).head? := by
  have hq' : Quiet QueueState (evs ++ [.process]) := by
    intro t v hm
    rcases List.mem_append.mp hm with hm | hm
    · exact hq t v hm
    · simp at hm
  rw [run_snoc] at h
  obtain ⟨s0, h0, h1⟩ := Option.bind_eq_some_iff.mp h
  obtain ⟨hw, hin, sh, hsh, haf⟩ := inv_run evs s0 hq h0
  simp only [Sys.step] at h1
  unfold Sys.process at h1
  obtain ⟨a, b, d⟩ := items_showing s0.input (s := { s0 with input := [] }) hsh hin h1
  rcases haf with haf | ⟨_, _, hn⟩
  · rw [haf] at a; rw [← hw]; exact showing_shows a
  · exact absurd ha hn

/-- C86 says "once a message has arrived" because before that HaveMessage is unknown, not false. -/
theorem c86_at_first : (Sys.run text [.register haveMessage, .execute .get 0 [], .process]).map (fun s => s.cache.read haveMessage) = some none := rfl

/-- A message. -/
def hello : Msg := { name := lit "hello", params := [.known (.int 5#32), .unknown .unknownT], sender := lit "x", time := 0x4000000000000000#64 }
/-- Another. -/
def bye : Msg := { name := lit "bye", params := [], sender := [], time := 0#64 }

/-- The text of a string is that string. -/
def plain : Value → Str
  | .known (.str s) => s
  | _ => lit "?"

/-- Two messages, one of them taken. -/
theorem c86_example : (Sys.run plain [.receive hello, .process, .receive bye, .execute .get 0 [], .process]).map
    (fun s => (s.cache.read haveMessage, s.cache.read peekAtMessage, s.cache.read peekAtMessageSender)) =
    some (some (.bool true), some (.str (lit "bye")), some (.str [])) := by decide +kernel

/-! ### C87: handles -/

/-- Where the cell of a data state stands: `none` for handles not in use. -/
def CellsOk (c : Cache) (h : Str) : Option Msg → Prop
  | none => ∀ s, DataState h s → c.cell s = none
  | some m => c.cell (textState h) = some (.typed .string (some (.str m.name))) ∧
      c.cell (countState h) = some (.typed .integer (some (.int (BitVec.ofNat 32 m.params.length)))) ∧
      c.cell (senderState h) = some (.typed .string (some (.str m.sender))) ∧ c.cell (arrivedState h) = some (.typed .real (some (.real m.time))) ∧
      m.params.length < 2 ^ 31 ∧
      (∀ i v, m.params[i]? = some v → ∃ d, c.cell (paramState h i) = some d ∧ d.get = content v) ∧
      (∀ i, m.params.length ≤ i → i < 2 ^ 31 → c.cell (paramState h i) = none) ∧
      (∀ i, 2 ^ 31 ≤ i → (∀ j, j < 2 ^ 31 → paramState h i ≠ paramState h j) → c.cell (paramState h i) = none)

theorem cellsOk_congr {c c' : Cache} {h : Str} {m : Option Msg} (hk : CellsOk c h m) (e : ∀ s, DataState h s → c'.cell s = c.cell s) : CellsOk c' h m := by
  have e1 := e _ (Or.inl rfl); have e2 := e _ (Or.inr (Or.inl rfl)); have e3 := e _ (Or.inr (Or.inr (Or.inl rfl)))
  have e4 := e _ (Or.inr (Or.inr (Or.inr (Or.inl rfl)))); have e5 : ∀ i, c'.cell (paramState h i) = c.cell (paramState h i) := fun i => e _ (Or.inr (Or.inr (Or.inr (Or.inr ⟨i, rfl⟩))))
  cases m with
  | none => intro s hs; rw [e s hs]; exact hk s hs
  | some m =>
    obtain ⟨a, b, d, f, g, k, l, n⟩ := hk
    refine ⟨by rw [e1, a], by rw [e2, b], by rw [e3, d], by rw [e4, f], g, ?_, ?_, ?_⟩
    · intro i v hv; rw [e5]; exact k i v hv
    · intro i; rw [e5]; exact l i
    · intro i; rw [e5]; exact n i

theorem update_none_get {c c' : Cache} {s : State} {x : Value} (hc : c.cell s = none) (h : c.update s x = some c') : ∃ d, c'.cell s = some d ∧ d.get = content x := by
  rw [← entry_value] at hc
  unfold Cache.update at h
  obtain ⟨e, he, rfl⟩ := Option.map_eq_some_iff.mp h
  rw [cell_set, if_pos rfl]
  by_cases hx : x.type = .unknownT
  · rw [unknown_of_type hx, update_nothing (Or.inl hc)] at he
    cases he
    rw [unknown_of_type hx]
    exact ⟨.void, rfl, rfl⟩
  · rw [update_untyped (Or.inl hc) hx] at he
    split at he
    · cases he
    · cases x with
      | unknown t => simp only [Option.some.injEq] at he; subst he; exact ⟨_, rfl, rfl⟩
      | known p => simp only [Option.some.injEq] at he; subst he; exact ⟨_, rfl, rfl⟩

theorem assignParams_spec (h : Str) : ∀ (vs : List Value) (i : Nat) (c c' : Cache), i + vs.length ≤ 2 ^ 31 →
    (∀ j, i ≤ j → j < i + vs.length → c.cell (paramState h j) = none) → assignParams h i vs c = some c' →
    (∀ j v, vs[j]? = some v → ∃ d, c'.cell (paramState h (i + j)) = some d ∧ d.get = content v) ∧
    (∀ s, (∀ j, i ≤ j → j < i + vs.length → s ≠ paramState h j) → c'.cell s = c.cell s)
  | [], i, c, c', _, _, ha => by
    simp only [assignParams, Option.some.injEq] at ha; subst ha
    exact ⟨by simp, fun _ _ => rfl⟩
  | v :: vs, i, c, c', hl, hn, ha => by
    simp only [assignParams] at ha
    obtain ⟨c1, h1, h2⟩ := Option.bind_eq_some_iff.mp ha
    simp only [List.length_cons] at hl hn
    have ne : ∀ j, i < j → j < 2 ^ 31 → paramState h j ≠ paramState h i := by
      intro j hj hj2 e
      have := (paramState_inj (by omega) (by omega) e).2
      omega
    obtain ⟨a, b⟩ := assignParams_spec h vs (i + 1) c1 c' (by omega) (by
      intro j hj hj2
      rw [cell_update_other h1 (ne j (by omega) (by omega))]
      exact hn j (by omega) (by omega)) h2
    constructor
    · intro j w hw
      cases j with
      | zero =>
        simp at hw; subst hw
        rw [Nat.add_zero, b (paramState h i) (fun j hj hj2 => (ne j (by omega) (by omega)).symm)]
        exact update_none_get (hn i (by omega) (by omega)) h1
      | succ j =>
        simp at hw
        have := a j w hw
        rwa [show i + 1 + j = i + (j + 1) by omega] at this
    · intro s hs
      simp only [List.length_cons] at hs
      rw [b s (fun j hj hj2 => hs j (by omega) (by omega)), cell_update_other h1 (hs i (by omega) (by omega))]

theorem tc (h : Str) : textState h ≠ countState h := name_ne (show lit "MessageText" ≠ lit "MessageParameterCount" by decide)
theorem ts (h : Str) : textState h ≠ senderState h := name_ne (show lit "MessageText" ≠ lit "MessageSender" by decide)
theorem ta (h : Str) : textState h ≠ arrivedState h := name_ne (show lit "MessageText" ≠ lit "MessageArrived" by decide)
theorem tp (h : Str) (i : Nat) : textState h ≠ paramState h i := name_ne (show lit "MessageText" ≠ lit "MessageParameter" by decide)
theorem cs (h : Str) : countState h ≠ senderState h := name_ne (show lit "MessageParameterCount" ≠ lit "MessageSender" by decide)
theorem ca (h : Str) : countState h ≠ arrivedState h := name_ne (show lit "MessageParameterCount" ≠ lit "MessageArrived" by decide)
theorem cp (h : Str) (i : Nat) : countState h ≠ paramState h i := name_ne (show lit "MessageParameterCount" ≠ lit "MessageParameter" by decide)
theorem sa (h : Str) : senderState h ≠ arrivedState h := name_ne (show lit "MessageSender" ≠ lit "MessageArrived" by decide)
theorem sp (h : Str) (i : Nat) : senderState h ≠ paramState h i := name_ne (show lit "MessageSender" ≠ lit "MessageParameter" by decide)
theorem ap (h : Str) (i : Nat) : arrivedState h ≠ paramState h i := name_ne (show lit "MessageArrived" ≠ lit "MessageParameter" by decide)

theorem exact_update {c c' : Cache} {s : State} {p : Payload} (hc : c.cell s = none) (h : c.update s (.known p) = some c') :
    c'.cell s = some (.typed p.type (some p)) := by
  have hr : resultType p.type = p.type := by cases p <;> rfl
  have h0 : (Value.known p).type ≠ .unknownT := by cases p <;> simp [Value.type, Payload.type]
  rw [← entry_value] at hc
  unfold Cache.update at h
  obtain ⟨e, he, rfl⟩ := Option.map_eq_some_iff.mp h
  rw [update_untyped (Or.inl hc) h0] at he
  split at he
  · cases he
  · simp only [Option.some.injEq] at he; subst he
    rw [cell_set, if_pos rfl]
    simp only [Entry.stored, Option.bind_some, Value.type, hr]

theorem assign_cells {c c' : Cache} {m : Msg} {h : Str} (hn : ∀ s, DataState h s → c.cell s = none) (hl : m.params.length < 2 ^ 31)
    (ha : assignMessageHandle c m h = some c') : CellsOk c' h (some m) ∧ ∀ s, ¬ DataState h s → c'.cell s = c.cell s := by
  unfold assignMessageHandle at ha
  obtain ⟨c4, h4, h5⟩ := Option.bind_eq_some_iff.mp ha
  obtain ⟨c3, h3, h4⟩ := Option.bind_eq_some_iff.mp h4
  obtain ⟨c2, h2, h3⟩ := Option.bind_eq_some_iff.mp h3
  obtain ⟨c1, h1, h2⟩ := Option.bind_eq_some_iff.mp h2
  have dt : DataState h (textState h) := Or.inl rfl
  have dc : DataState h (countState h) := Or.inr (Or.inl rfl)
  have ds : DataState h (senderState h) := Or.inr (Or.inr (Or.inl rfl))
  have da : DataState h (arrivedState h) := Or.inr (Or.inr (Or.inr (Or.inl rfl)))
  have dp : ∀ i, DataState h (paramState h i) := fun i => Or.inr (Or.inr (Or.inr (Or.inr ⟨i, rfl⟩)))
  have k1 : c1.cell (textState h) = _ := exact_update (hn _ dt) h1
  have k2 : c2.cell (countState h) = _ := exact_update (by rw [cell_update_other h1 (tc h).symm]; exact hn _ dc) h2
  have pn : ∀ i, c2.cell (paramState h i) = none := by
    intro i; rw [cell_update_other h2 (cp h i).symm, cell_update_other h1 (tp h i).symm]; exact hn _ (dp i)
  obtain ⟨p1, p2⟩ := assignParams_spec h m.params 0 c2 c3 (by omega) (fun j _ _ => pn j) h3
  have o3 : ∀ s, (∀ i, s ≠ paramState h i) → c3.cell s = c2.cell s := fun s hs => p2 s (fun j _ _ => hs j)
  have k4 : c4.cell (senderState h) = _ := exact_update (by rw [o3 _ (sp h), cell_update_other h2 (cs h).symm, cell_update_other h1 (ts h).symm]; exact hn _ ds) h4
  have k5 : c'.cell (arrivedState h) = _ :=
    exact_update (by rw [cell_update_other h4 (sa h).symm, o3 _ (ap h), cell_update_other h2 (ca h).symm, cell_update_other h1 (ta h).symm]; exact hn _ da) h5
  refine ⟨⟨?_, ?_, ?_, k5, hl, ?_, ?_, ?_⟩, ?_⟩
  · rw [cell_update_other h5 (ta h), cell_update_other h4 (ts h), o3 _ (tp h), cell_update_other h2 (tc h), k1]; rfl
  · rw [cell_update_other h5 (ca h), cell_update_other h4 (cs h), o3 _ (cp h), k2]; rfl
  · rw [cell_update_other h5 (sa h), k4]; rfl
  · intro i v hv
    rw [cell_update_other h5 (ap h i).symm, cell_update_other h4 (sp h i).symm]
    have := p1 i v hv
    rwa [Nat.zero_add] at this
  · intro i hi hi2
    rw [cell_update_other h5 (ap h i).symm, cell_update_other h4 (sp h i).symm, p2 _ (fun j _ hj e => by
      have := (paramState_inj (by omega) (by omega) e).2
      omega)]
    exact pn i
  · intro i hi hi2
    rw [cell_update_other h5 (ap h i).symm, cell_update_other h4 (sp h i).symm, p2 _ (fun j _ hj e => hi2 j (by omega) e)]
    exact pn i
  · intro s hs
    have ne : ∀ t, DataState h t → s ≠ t := fun t ht e => hs (by rw [e]; exact ht)
    rw [cell_update_other h5 (ne _ da), cell_update_other h4 (ne _ ds), p2 s (fun j _ _ => ne _ (dp j)), cell_update_other h2 (ne _ dc), cell_update_other h1 (ne _ dt)]

theorem release_cells {c c' : Cache} {h : Str} {m : Option Msg} (hk : CellsOk c h m) (hl : ∀ s, DataState h s → (c.entry s).lookups = 0)
    (hr : releaseMessageHandle c h = some c') : ∀ s, DataState h s → c'.cell s = none := by
  have dc : DataState h (countState h) := Or.inr (Or.inl rfl)
  have dp : ∀ i, DataState h (paramState h i) := fun i => Or.inr (Or.inr (Or.inr (Or.inr ⟨i, rfl⟩)))
  unfold releaseMessageHandle at hr
  cases m with
  | none =>
    have := hk _ dc
    split at hr
    · cases hr; exact hk
    · rename_i e he
      simp only [Cache.cell, he, Option.bind_some] at this
      rw [this] at hr
      cases hr
  | some m =>
    obtain ⟨a, b, d, f, g, k, l, n⟩ := hk
    split at hr
    · rename_i hn; simp [Cache.cell, hn] at b
    · rename_i e he
      have hev : e.value = some (.typed .integer (some (.int (BitVec.ofNat 32 m.params.length)))) := by simpa [Cache.cell, he] using b
      have he0 : e.lookups = 0 := by simpa [Cache.entry, he] using hl _ dc
      rw [hev] at hr
      simp only [he0, ne_eq, not_true_eq_false, if_false, Option.some.injEq] at hr
      have hit : iterations (BitVec.ofNat 32 m.params.length) = m.params.length := by
        unfold iterations
        rw [BitVec.toInt_ofNat']
        rw [Int.bmod_eq_of_le] <;> omega
      rw [hit] at hr
      subst hr
      have lk : ∀ s, DataState h s → ((c.set (countState h) none).entry s).lookups = 0 := by
        intro s hs
        unfold Cache.entry Cache.set
        split
        · rfl
        · exact hl s hs
      have lp : ∀ s, DataState h s → ((deleteParams h m.params.length (c.set (countState h) none)).entry s).lookups = 0 :=
        fun s hs => lookups_deleteParams h _ _ s (lk s hs)
      have par : ∀ i, (deleteParams h m.params.length (c.set (countState h) none)).cell (paramState h i) = none := by
        intro i
        by_cases hex : ∃ j, j < m.params.length ∧ paramState h i = paramState h j
        · obtain ⟨j, hj, e⟩ := hex
          rw [e]
          exact cell_deleteParams_same h _ _ j hj (by omega) (fun j => lk _ (dp j))
        · have keep : ∀ n, n ≤ m.params.length → (deleteParams h n (c.set (countState h) none)).cell (paramState h i) = c.cell (paramState h i) := by
            intro n
            induction n with
            | zero => intro _; rw [deleteParams, cell_set, if_neg (cp h i).symm]
            | succ n ih =>
              intro hn
              rw [deleteParams, cell_delete_other _ (fun e => hex ⟨n, by omega, e⟩), ih (by omega)]
          rw [keep _ (Nat.le_refl _)]
          by_cases hex2 : ∃ j, j < 2 ^ 31 ∧ paramState h i = paramState h j
          · obtain ⟨j, hj, e⟩ := hex2
            rw [e]
            refine l j ?_ hj
            by_cases hjl : j < m.params.length
            · exact absurd ⟨j, hjl, e⟩ hex
            · omega
          · refine n i ?_ (fun j hj e => hex2 ⟨j, hj, e⟩)
            by_cases hi : i < 2 ^ 31
            · exact absurd ⟨i, hi, rfl⟩ hex2
            · omega
      rintro s (rfl | rfl | rfl | rfl | ⟨i, rfl⟩)
      · rw [cell_delete_other _ (ta h), cell_delete_other _ (ts h)]
        exact cell_delete_same (lp _ (Or.inl rfl))
      · rw [cell_delete_other _ (ca h), cell_delete_other _ (cs h), cell_delete_other _ (tc h).symm, cell_deleteParams_other _ _ _ (cp h), cell_set, if_pos rfl]; rfl
      · rw [cell_delete_other _ (sa h)]
        exact cell_delete_same (entry_lookups_delete _ _ _ (lp _ (Or.inr (Or.inr (Or.inl rfl)))))
      · exact cell_delete_same (entry_lookups_delete _ _ _ (entry_lookups_delete _ _ _ (lp _ (Or.inr (Or.inr (Or.inr (Or.inl rfl)))))))
      · rw [cell_delete_other _ (ap h i).symm, cell_delete_other _ (sp h i).symm, cell_delete_other _ (tp h i).symm]
        exact par i

theorem reach_cells {live : Str → Option Msg} {c : Cache} (r : Reach live c) : ∀ h, CellsOk c h (live h) := by
  induction r with
  | init => intro h s _; rfl
  | assign r hf hl ha ih =>
    rename_i live c m h c'
    have hn := ih h
    rw [hf] at hn
    obtain ⟨a, b⟩ := assign_cells hn hl ha
    intro h'
    by_cases e : h' = h
    · subst e; simp only [if_true]; exact a
    · simp only [e, if_false]
      exact cellsOk_congr (ih h') (fun s hs => b s (fun hd => e (dataState_handle hs hd)))
  | release r hl hr ih =>
    rename_i live c h c'
    intro h'
    by_cases e : h' = h
    · subst e; simp only [if_true]; exact release_cells (ih h') hl hr
    · simp only [e, if_false]
      exact cellsOk_congr (ih h') (fun s hs => release_cell hr (fun hd => e (dataState_handle hs hd)))
  | register s r ih => intro h; exact cellsOk_congr (ih h) (fun t _ => cell_register _ _ _)
  | unregister s r hu ih => intro h; exact cellsOk_congr (ih h) (fun t _ => cell_unregister hu _)
  | value s x r hs hu ih => intro h; exact cellsOk_congr (ih h) (fun t ht => cell_update_other hu (fun e => hs h (e ▸ ht)))

/-- C87, the state cache: if handles are given to messages and released as they should be, then the lookups of a handle in use read exactly the text, the sender, the time and
the parameters of its message, and those of any other handle are unknown. -/
theorem c87_handles_partial (live : Str → Option Msg) (c : Cache) (r : Reach live c) (h : Str) :
    match live h with
    | some m => Readable c h m
    | none => Unreadable c h := by
  have := reach_cells r h
  cases hl : live h with
  | none =>
    rw [hl] at this
    intro s hs
    rw [read_cell, this s hs]; rfl
  | some m =>
    rw [hl] at this
    obtain ⟨a, b, d, f, g, k, l, n⟩ := this
    refine ⟨by rw [read_cell, a]; rfl, by rw [read_cell, b]; rfl, by rw [read_cell, d]; rfl, by rw [read_cell, f]; rfl, ?_⟩
    intro i hi
    rw [read_cell]
    cases hv : m.params[i]? with
    | none => rw [l i (by rw [List.getElem?_eq_none_iff] at hv; omega) hi]; rfl
    | some v =>
      obtain ⟨d, h1, h2⟩ := k i v hv
      rw [h1, Option.bind_some, h2]
      cases v <;> rfl

/-- The hypotheses of C87 are met: a message with two parameters gets a handle, is looked at, and the handle is released. -/
theorem c87_example : ∃ c1 c2, Reach (fun h => if h = lit "h" then some hello else none) c1 ∧ Reach (fun h => if h = lit "h" then none else (if h = lit "h" then some hello else none)) c2 ∧
    c1.read (paramState (lit "h") 0) = some (.int 5#32) ∧ c2.read (paramState (lit "h") 0) = none := by
  obtain ⟨c1, h1, k1⟩ := Option.map_eq_some_iff.mp (show (assignMessageHandle (Cache.register (fun _ => none) (textState (lit "h"))) hello (lit "h")).map
    (fun c => (c.read (paramState (lit "h") 0), (c.unregister (textState (lit "h"))).isSome)) = some (some (.int 5#32), true) by decide +kernel)
  simp only [Prod.mk.injEq] at k1
  have r1 := Reach.assign (live := fun _ => none) (m := hello) (h := lit "h") (Reach.register (textState (lit "h")) Reach.init) rfl (by decide) h1
  obtain ⟨c1', hu⟩ := Option.isSome_iff_exists.mp k1.2
  have r2 := Reach.unregister _ r1 hu
  have k1' : c1'.read (paramState (lit "h") 0) = some (.int 5#32) := by rw [read_cell, cell_unregister hu, ← read_cell]; exact k1.1
  obtain ⟨c2, h2, k2⟩ := Option.map_eq_some_iff.mp (show (((assignMessageHandle (Cache.register (fun _ => none) (textState (lit "h"))) hello (lit "h")).bind
    (fun c => c.unregister (textState (lit "h")))).bind (fun c => (releaseMessageHandle c (lit "h")))).map (fun c => (c.read (paramState (lit "h") 0))) = some none by decide +kernel)
  rw [h1, Option.bind_some, hu, Option.bind_some] at h2
  have hl : ∀ s, DataState (lit "h") s → (c1'.entry s).lookups = 0 := by
    have e0 : (Cache.register (fun _ => none) (textState (lit "h"))).entry (textState (lit "h")) = { lookups := 1 } := by
      simp [Cache.register, Cache.entry, Cache.set]
    have lu : ∀ (c c' : Cache) (s s' : State) (x : Value), c.update s x = some c' → (c'.entry s').lookups = (c.entry s').lookups := by
      intro c c' s s' x hx
      unfold Cache.update at hx
      obtain ⟨e, he, rfl⟩ := Option.map_eq_some_iff.mp hx
      have hlk : e.lookups = (c.entry s).lookups := by
        unfold Entry.update at he
        obtain ⟨r, _, ht⟩ := Option.bind_eq_some_iff.mp he
        unfold Entry.take at ht
        split at ht
        · obtain ⟨q, _, rfl⟩ := Option.map_eq_some_iff.mp ht; rfl
        · cases ht; rfl
      by_cases hs : s' = s
      · subst hs; simp [Cache.entry, Cache.set] at hlk ⊢; exact hlk
      · simp [Cache.entry, Cache.set, hs]
    have lp : ∀ (vs : List Value) (i : Nat) (c c' : Cache) (s' : State), assignParams (lit "h") i vs c = some c' → (c'.entry s').lookups = (c.entry s').lookups := by
      intro vs
      induction vs with
      | nil => intro i c c' s' hx; simp only [assignParams, Option.some.injEq] at hx; rw [hx]
      | cons v vs ih =>
        intro i c c' s' hx
        simp only [assignParams] at hx
        obtain ⟨c1, a, b⟩ := Option.bind_eq_some_iff.mp hx
        rw [ih _ _ _ _ b, lu _ _ _ _ _ a]
    have la : ∀ s', (c1.entry s').lookups = ((Cache.register (fun _ => none) (textState (lit "h"))).entry s').lookups := by
      intro s'
      unfold assignMessageHandle at h1
      obtain ⟨c4, a4, a5⟩ := Option.bind_eq_some_iff.mp h1
      obtain ⟨c3, a3, a4⟩ := Option.bind_eq_some_iff.mp a4
      obtain ⟨c2, a2, a3⟩ := Option.bind_eq_some_iff.mp a3
      obtain ⟨c1, a1, a2⟩ := Option.bind_eq_some_iff.mp a2
      rw [lu _ _ _ _ _ a5, lu _ _ _ _ _ a4, lp _ _ _ _ _ a3, lu _ _ _ _ _ a2, lu _ _ _ _ _ a1]
    intro s _
    unfold Cache.unregister at hu
    cases hc : c1 (textState (lit "h")) with
    | none => rw [hc] at hu; cases hu
    | some e =>
      rw [hc] at hu
      simp only at hu
      split at hu
      · cases hu
      · cases hu
        have le := la (textState (lit "h"))
        rw [e0] at le
        simp only [Cache.entry, hc, Option.getD_some] at le
        by_cases hs : s = textState (lit "h")
        · subst hs; simp [Cache.entry, Cache.set, le]
        · have := la s
          simp only [Cache.entry, Cache.set, hs, if_false] at this ⊢
          rw [this]
          simp [Cache.register, Cache.set, hs]
  exact ⟨c1', c2, r2, Reach.release r2 hl h2, k1', k2⟩

/-! ### What the adapter makes of it -/

/-- A data state of some handle. -/
def AnyData (s : State) : Prop := ∃ h, DataState h s

theorem queue_ne_data {s t : State} (hq : QueueState s) (ht : AnyData t) : t ≠ s := by
  obtain ⟨h, hd⟩ := ht
  rintro rfl
  exact queue_not_data hq h hd

theorem received_other {c c' : Cache} {m : Msg} (h : messageReceived c m = some c') {t : State} (ht : AnyData t) : c'.cell t = c.cell t := by
  unfold messageReceived at h
  obtain ⟨c2, a2, a3⟩ := Option.bind_eq_some_iff.mp h
  obtain ⟨c1, a1, a2⟩ := Option.bind_eq_some_iff.mp a2
  rw [cell_update_other a3 (queue_ne_data (Or.inr (Or.inr rfl)) ht), cell_update_other a2 (queue_ne_data (Or.inr (Or.inl rfl)) ht), cell_update_other a1 (queue_ne_data (Or.inl rfl) ht)]

theorem empty_other {c c' : Cache} (h : messageQueueEmpty c = some c') {t : State} (ht : AnyData t) : c'.cell t = c.cell t := by
  unfold messageQueueEmpty at h
  obtain ⟨c1, a1, rfl⟩ := Option.map_eq_some_iff.mp h
  rw [cell_setUnknown_other _ _ (queue_ne_data (Or.inr (Or.inr rfl)) ht), cell_setUnknown_other _ _ (queue_ne_data (Or.inr (Or.inl rfl)) ht), cell_update_other a1 (queue_ne_data (Or.inl rfl) ht)]

theorem release_none {c c' : Cache} {h : Str} (hr : releaseMessageHandle c h = some c') (hn : ∀ t, AnyData t → c.cell t = none) : c' = c := by
  unfold releaseMessageHandle at hr
  split at hr
  · cases hr; rfl
  · rename_i e he
    have := hn (countState h) ⟨h, Or.inr (Or.inl rfl)⟩
    simp only [Cache.cell, he, Option.bind_some] at this
    rw [this] at hr; cases hr

/-- Nothing is known about any message by a handle, no accepted message is in the queue, and no command got more than an empty string. -/
def Dead (s : Sys) : Prop :=
  (∀ t, AnyData t → s.cache.cell t = none) ∧ InputOk AnyData s.input ∧ (∀ c v, Item.ret c v ∈ s.input → v = .unknown .unknownT ∨ v = sv []) ∧
  ∀ c v, (c, v) ∈ s.rets → v = .unknown .unknownT ∨ v = sv []

theorem items_dead : ∀ (its : List Item) {s s' : Sys}, (∀ t, AnyData t → s.cache.cell t = none) → InputOk AnyData its →
    (∀ c v, Item.ret c v ∈ its → v = .unknown .unknownT ∨ v = sv []) → (∀ c v, (c, v) ∈ s.rets → v = .unknown .unknownT ∨ v = sv []) → its.foldlM Sys.item s = some s' →
    (∀ t, AnyData t → s'.cache.cell t = none) ∧ (∀ c v, (c, v) ∈ s'.rets → v = .unknown .unknownT ∨ v = sv []) ∧ s'.input = s.input
  | [], s, s', h, _, _, hr, hs => by simp at hs; subst hs; exact ⟨h, hr, rfl⟩
  | it :: its, s, s', h, ho, hi, hr, hs => by
    rw [List.foldlM_cons] at hs
    obtain ⟨s1, h1, h2⟩ := Option.bind_eq_some_iff.mp hs
    have ho' : InputOk AnyData its := fun x hx => ho x (by simp [hx])
    have hi' : ∀ c v, Item.ret c v ∈ its → v = .unknown .unknownT ∨ v = sv [] := fun c v hx => hi c v (by simp [hx])
    have go : (∀ t, AnyData t → s1.cache.cell t = none) → (∀ c v, (c, v) ∈ s1.rets → v = .unknown .unknownT ∨ v = sv []) → s1.input = s.input →
        (∀ t, AnyData t → s'.cache.cell t = none) ∧ (∀ c v, (c, v) ∈ s'.rets → v = .unknown .unknownT ∨ v = sv []) ∧ s'.input = s.input := by
      intro a b d
      obtain ⟨x, y, z⟩ := items_dead its a ho' hi' b h2
      exact ⟨x, y, by rw [z, d]⟩
    cases it with
    | received m =>
      simp only [Sys.item] at h1
      obtain ⟨c', hc, rfl⟩ := Option.map_eq_some_iff.mp h1
      exact go (fun t ht => by rw [received_other hc ht]; exact h t ht) hr rfl
    | empty =>
      simp only [Sys.item] at h1
      obtain ⟨c', hc, rfl⟩ := Option.map_eq_some_iff.mp h1
      exact go (fun t ht => by rw [empty_other hc ht]; exact h t ht) hr rfl
    | accept m k => exact absurd rfl ((ho _ (by simp)).2 m k)
    | release hh =>
      simp only [Sys.item] at h1
      obtain ⟨c', hc, rfl⟩ := Option.map_eq_some_iff.mp h1
      have := release_none hc h
      subst this
      exact go h hr rfl
    | ack c n => simp only [Sys.item, Option.some.injEq] at h1; subst h1; exact go h hr rfl
    | ret c v =>
      simp only [Sys.item, Option.some.injEq] at h1; subst h1
      refine go h ?_ rfl
      intro c' v' hm
      rcases List.mem_append.mp hm with hm | hm
      · exact hr c' v' hm
      · simp at hm; obtain ⟨rfl, rfl⟩ := hm; exact hi c' v' (by simp)
    | value t v =>
      simp only [Sys.item] at h1
      obtain ⟨c', hc, rfl⟩ := Option.map_eq_some_iff.mp h1
      refine go (fun u hu => ?_) hr rfl
      rw [cell_update_other hc (fun e => (ho _ (by simp)).1 t v rfl (e ▸ hu))]
      exact h u hu

theorem complain_ret (b : Bool) (cmd n c : Nat) (v : Value) : Item.ret c v ∉ complain b cmd n := by unfold complain; split <;> simp

theorem execute_ret (q : List Msg) (k : Kind) (cmd : Nat) (args : List Value) (c : Nat) (v : Value) (h : Item.ret c v ∈ (execute text q k cmd args).2) :
    v = .unknown .unknownT ∨ v = sv [] := by
  cases k with
  | get =>
    simp only [execute] at h
    unfold acceptMessage at h
    split at h
    · simp at h; exact Or.inl h.2
    · simp only [notifyMessageAccepted, if_true, List.nil_append] at h
      split at h
      · simp at h; exact Or.inr h.2
      · simp at h; exact Or.inr h.2
  | release =>
    exfalso
    simp only [execute, releaseHandler, List.mem_append, complain_ret, false_or, notifyMessageHandleReleased] at h
    split at h <;> simp at h
  | publish => exfalso; simp [execute, publishHandler, List.mem_append, complain_ret] at h
  | send => exfalso; simp [execute, sendHandler, List.mem_append, complain_ret] at h

theorem dead_run (evs : List Ev) : ∀ s, Quiet AnyData evs → Sys.run text evs = some s → Dead s := by
  induction evs using List.reverseRecOn with
  | nil =>
    intro s _ h
    simp [Sys.run] at h
    subst h
    exact ⟨fun _ _ => rfl, by intro it hi; simp at hi, by simp, by simp⟩
  | append_singleton evs ev ih =>
    intro s hq h
    rw [run_snoc] at h
    obtain ⟨s0, h0, h1⟩ := Option.bind_eq_some_iff.mp h
    obtain ⟨a, b, d, e⟩ := ih s0 (fun t v hm => hq t v (List.mem_append.mpr (Or.inl hm))) h0
    cases ev with
    | receive m =>
      simp only [Sys.step, Option.some.injEq] at h1; subst h1
      refine ⟨a, inputOk_append b ?_, ?_, e⟩
      · simp only [enqueueMessage]
        split
        · intro it hi; simp at hi; subst hi; simp
        · intro it hi; simp at hi
      · intro c v hm
        rcases List.mem_append.mp hm with hm | hm
        · exact d c v hm
        · simp only [enqueueMessage] at hm
          split at hm <;> simp at hm
    | execute k cmd args =>
      simp only [Sys.step, Option.some.injEq] at h1; subst h1
      refine ⟨a, inputOk_append b (execute_ok _ _ _ _ _), ?_, e⟩
      intro c v hm
      rcases List.mem_append.mp hm with hm | hm
      · exact d c v hm
      · exact execute_ret _ _ _ _ c v hm
    | value t v =>
      simp only [Sys.step, Option.some.injEq] at h1; subst h1
      refine ⟨a, inputOk_append b ?_, ?_, e⟩
      · intro it hi; simp at hi; subst hi
        refine ⟨?_, by simp⟩
        rintro t' v' ⟨⟩
        exact hq t v (by simp)
      · intro c v hm
        rcases List.mem_append.mp hm with hm | hm
        · exact d c v hm
        · simp at hm
    | process =>
      simp only [Sys.step] at h1
      unfold Sys.process at h1
      obtain ⟨x, y, z⟩ := items_dead s0.input (s := { s0 with input := [] }) a b d e h1
      exact ⟨x, by rw [z]; intro it hi; simp at hi, by rw [z]; simp, y⟩
    | register t =>
      simp only [Sys.step, Option.some.injEq] at h1; subst h1
      exact ⟨fun u hu => by rw [cell_register]; exact a u hu, b, d, e⟩
    | unregister t =>
      simp only [Sys.step] at h1
      obtain ⟨c', hc, rfl⟩ := Option.map_eq_some_iff.mp h1
      exact ⟨fun u hu => by rw [cell_unregister hc]; exact a u hu, b, d, e⟩

/-- C87 is false of the message adapter: in no history whatsoever does any lookup of a handle – text, parameters, sender, time – become known, and the handle a
`GetMessageHandle` command returns is the empty string, or unknown. -/
theorem c87_never_readable (evs : List Ev) (s : Sys) (h : Sys.run text evs = some s) (hq : Quiet AnyData evs) :
    (∀ hd, Unreadable s.cache hd) ∧ ∀ cmd v, (cmd, v) ∈ s.rets → v = .unknown .unknownT ∨ v = sv [] := by
  obtain ⟨a, _, _, d⟩ := dead_run evs s hq h
  exact ⟨fun hd t ht => by rw [read_cell, a t ⟨hd, ht⟩]; rfl, d⟩

/-- Were the handle not empty, accepting a message would stop the exec: the queue entry does not carry the handle. -/
theorem c87_accept_fails (s : Sys) (m : Msg) (h : Str) (hh : h ≠ []) : (notifyMessageAccepted m h).foldlM Sys.item s = none := by
  simp [notifyMessageAccepted, hh, initForAcceptMessage, Sys.item]

/-- Releasing a handle whose number of parameters a lookup has asked for, without ever getting it, is a crash – at any time, even if the lookup is gone. -/
theorem c87_release_crash (c : Cache) (h : Str) (hn : c.cell (countState h) = none) (hr : (c (countState h)).isSome) : releaseMessageHandle c h = none := by
  unfold releaseMessageHandle
  obtain ⟨e, he⟩ := Option.isSome_iff_exists.mp hr
  have : e.value = none := by simpa [Cache.cell, he] using hn
  simp [he, this]

/-- A history of a plan that does so. -/
theorem c87_crash_example : (Sys.run plain [.register (countState (lit "x")), .unregister (countState (lit "x")), .execute .release 0 [sv (lit "x")]]).isSome = true ∧
    (Sys.run plain [.register (countState (lit "x")), .unregister (countState (lit "x")), .execute .release 0 [sv (lit "x")], .process]).isSome = false := by decide +kernel

/-! ### C88: the answers to the commands -/

theorem acksOf_append (cmd : Nat) (a b : List Item) : acksOf cmd (a ++ b) = acksOf cmd a ++ acksOf cmd b := by
  induction a with
  | nil => rfl
  | cons x a ih =>
    cases x with
    | ack c h => simp only [List.cons_append, acksOf, ih]; split <;> simp
    | _ => simp only [List.cons_append, acksOf, ih]

theorem acksOf_complain (b : Bool) (cmd h : Nat) : acksOf cmd (complain b cmd h) = if b then [h] else [] := by
  unfold complain; split <;> simp [acksOf]

theorem acks_release (cmd : Nat) (args : List Value) : acksOf cmd (releaseHandler text cmd args) =
    (if args.length < 1 then [Command.failed] else []) ++ (if paramType args 0 ≠ .string then [Command.failed] else []) ++
    (if (param args 0).isKnown then [] else [Command.success]) ++ [Command.success] := by
  have : acksOf cmd (notifyMessageHandleReleased (text (param args 0))) = [] := by unfold notifyMessageHandleReleased; split <;> rfl
  simp only [releaseHandler, acksOf_append, acksOf_complain, this, acksOf, if_true, List.append_nil, decide_eq_true_eq]
  cases (param args 0).isKnown <;> simp

theorem acks_publish (cmd : Nat) (args : List Value) : acksOf cmd (publishHandler cmd args) =
    (if args.length < 1 then [Command.failed] else []) ++ (if paramType args 0 ≠ .string then [Command.failed] else []) ++
    (if (param args 0).isKnown then [] else [Command.failed]) ++ [Command.success] := by
  simp only [publishHandler, acksOf_append, acksOf_complain, acksOf, if_true, decide_eq_true_eq]
  cases (param args 0).isKnown <;> simp

theorem acks_send (cmd : Nat) (args : List Value) : acksOf cmd (sendHandler cmd args) =
    (if args.length < 1 then [Command.failed] else []) ++ (if paramType args 0 ≠ .string then [Command.failed] else []) ++
    (if (param args 0).isKnown then [] else [Command.failed]) ++ (if paramType args 1 ≠ .string then [Command.failed] else []) ++
    (if (param args 1).isKnown then [] else [Command.failed]) ++ [Command.success] := by
  simp only [sendHandler, acksOf_append, acksOf_complain, acksOf, if_true, decide_eq_true_eq]
  cases (param args 0).isKnown <;> cases (param args 1).isKnown <;> simp

theorem acks_get (q : List Msg) (cmd : Nat) : acksOf cmd (acceptMessage q cmd).2 = [Command.success] := by
  unfold acceptMessage
  split
  · simp [acksOf]
  · simp only [notifyMessageAccepted, if_true, List.nil_append]
    split <;> simp [acksOf]

/-- C88: a command with arguments in order is answered exactly once, with COMMAND_SUCCESS. -/
theorem c88_one_answer_partial (q : List Msg) (k : Kind) (cmd : Nat) (args : List Value) (h : ArgsOk k args) :
    acksOf cmd (execute text q k cmd args).2 = [Command.success] := by
  cases k with
  | get => exact acks_get q cmd
  | release => obtain ⟨s, r, rfl⟩ := h; simp [execute, acks_release, paramType, param, Value.type, Payload.type, Value.isKnown]
  | publish => obtain ⟨s, r, rfl⟩ := h; simp [execute, acks_publish, paramType, param, Value.type, Payload.type, Value.isKnown]
  | send => obtain ⟨s, t, r, rfl⟩ := h; simp [execute, acks_send, paramType, param, Value.type, Payload.type, Value.isKnown]

/-- C88 fails for every command whose arguments are not in order: it is answered at least twice, and the last answer is COMMAND_SUCCESS all the same. -/
theorem c88_always_success (q : List Msg) (k : Kind) (cmd : Nat) (args : List Value) (h : ¬ ArgsOk k args) :
    ∃ a l, acksOf cmd (execute text q k cmd args).2 = (a :: l) ++ [Command.success] := by
  have ne : ∀ {l : List Nat}, l ≠ [] → ∃ a r, l ++ [Command.success] = (a :: r) ++ [Command.success] := by
    intro l hl; cases l with
    | nil => exact absurd rfl hl
    | cons a r => exact ⟨a, r, rfl⟩
  have ok1 : ∀ (args : List Value) (i : Nat), paramType args i = .string → (param args i).isKnown = true → ∃ s, args[i]? = some (.known (.str s)) := by
    intro args i h1 h2
    unfold paramType at h1
    split at h1
    · rename_i hi
      unfold param at h2
      cases hv : args[i]? with
      | none => rw [List.getElem?_eq_none_iff] at hv; omega
      | some v =>
        simp only [List.getD_eq_getElem?_getD, hv, Option.getD_some] at h1 h2
        cases v with
        | unknown t => simp [Value.isKnown] at h2
        | known p => cases p <;> simp [Value.type, Payload.type] at h1; exact ⟨_, rfl⟩
    · cases h1
  have one : ∀ (args : List Value), (∃ s, args[0]? = some (.known (.str s))) → ∃ s r, args = .known (.str s) :: r := by
    rintro args ⟨s, hs⟩
    cases args with
    | nil => simp at hs
    | cons a r => simp at hs; subst hs; exact ⟨s, r, rfl⟩
  cases k with
  | get => exact absurd trivial h
  | release =>
    rw [show (execute text q .release cmd args).2 = releaseHandler text cmd args from rfl, acks_release]
    apply ne
    intro hn
    simp only [List.append_eq_nil_iff] at hn
    obtain ⟨⟨_, h2⟩, h3⟩ := hn
    have h2' : paramType args 0 = .string := by by_cases hh : paramType args 0 = .string; exact hh; simp [hh] at h2
    have h3' : (param args 0).isKnown = true := by by_cases hh : (param args 0).isKnown = true; exact hh; simp [hh] at h3
    exact h (one args (ok1 args 0 h2' h3'))
  | publish =>
    rw [show (execute text q .publish cmd args).2 = publishHandler cmd args from rfl, acks_publish]
    apply ne
    intro hn
    simp only [List.append_eq_nil_iff] at hn
    obtain ⟨⟨_, h2⟩, h3⟩ := hn
    have h2' : paramType args 0 = .string := by by_cases hh : paramType args 0 = .string; exact hh; simp [hh] at h2
    have h3' : (param args 0).isKnown = true := by by_cases hh : (param args 0).isKnown = true; exact hh; simp [hh] at h3
    exact h (one args (ok1 args 0 h2' h3'))
  | send =>
    rw [show (execute text q .send cmd args).2 = sendHandler cmd args from rfl, acks_send]
    apply ne
    intro hn
    simp only [List.append_eq_nil_iff] at hn
    obtain ⟨⟨⟨⟨_, h2⟩, h3⟩, h4⟩, h5⟩ := hn
    have h2' : paramType args 0 = .string := by by_cases hh : paramType args 0 = .string; exact hh; simp [hh] at h2
    have h3' : (param args 0).isKnown = true := by by_cases hh : (param args 0).isKnown = true; exact hh; simp [hh] at h3
    have h4' : paramType args 1 = .string := by by_cases hh : paramType args 1 = .string; exact hh; simp [hh] at h4
    have h5' : (param args 1).isKnown = true := by by_cases hh : (param args 1).isKnown = true; exact hh; simp [hh] at h5
    obtain ⟨s, r, rfl⟩ := one args (ok1 args 0 h2' h3')
    obtain ⟨t, ht⟩ := ok1 _ 1 h4' h5'
    simp only [List.getElem?_cons_succ] at ht
    obtain ⟨t, r, rfl⟩ := one r ⟨t, ht⟩
    exact h ⟨s, t, r, rfl⟩

theorem acks_valid (q : List Msg) (k : Kind) (cmd : Nat) (args : List Value) :
    ∀ a ∈ acksOf cmd (execute text q k cmd args).2, Command.noHandle < a ∧ a < Command.handleMax := by
  have hf : Command.noHandle < Command.failed ∧ Command.failed < Command.handleMax := by decide
  have hc : Command.noHandle < Command.success ∧ Command.success < Command.handleMax := by decide
  have one : ∀ (p : Prop) [Decidable p] (x : Nat), (Command.noHandle < x ∧ x < Command.handleMax) → ∀ a ∈ (if p then [x] else []), Command.noHandle < a ∧ a < Command.handleMax := by
    intro p _ x hx a ha
    by_cases hp : p
    · simp [hp] at ha; subst ha; exact hx
    · simp [hp] at ha
  intro a ha
  cases k with
  | get => simp only [execute, acks_get, List.mem_singleton] at ha; subst ha; exact hc
  | release =>
    simp only [execute, acks_release, List.mem_append] at ha
    aesop
  | publish =>
    simp only [execute, acks_publish, List.mem_append] at ha
    aesop
  | send =>
    simp only [execute, acks_send, List.mem_append] at ha
    aesop

/-- … so that the handle of the command that could not be carried out is COMMAND_SUCCESS in the end (the model of commands, C81). -/
theorem c88_handle {Env V : Type} (d : Command.Def Env V) (s : Command.St V) (ha : s.active = true) (q : List Msg) (k : Kind) (cmd : Nat) (args : List Value) :
    ∃ t, (acksOf cmd (execute text q k cmd args).2).foldlM (fun s a => Command.step d s (.ack a)) s = some t ∧ t.handle = Command.success := by
  have last : ∃ l, acksOf cmd (execute text q k cmd args).2 = l ++ [Command.success] := by
    by_cases h : ArgsOk k args
    · exact ⟨[], c88_one_answer_partial q k cmd args h⟩
    · obtain ⟨a, l, hl⟩ := c88_always_success (text := text) q k cmd args h; exact ⟨_, hl⟩
  obtain ⟨l, hl⟩ := last
  have hs := acks_valid (text := text) q k cmd args
  rw [hl] at hs ⊢
  have go : ∀ (l : List Nat) (s : Command.St V), s.active = true → (∀ a ∈ l, Command.noHandle < a ∧ a < Command.handleMax) →
      ∃ t, l.foldlM (fun s a => Command.step d s (.ack a)) s = some t ∧ t.active = true := by
    intro l
    induction l with
    | nil => intro s h _; exact ⟨s, rfl, h⟩
    | cons a l ih =>
      intro s h hv
      obtain ⟨t, ht, h2⟩ := ih { s with handle := a, published := s.published + 1 } h (fun x hx => hv x (by simp [hx]))
      refine ⟨t, ?_, h2⟩
      rw [List.foldlM_cons]
      have := hv a (by simp)
      rw [show Command.step d s (.ack a) = some { s with handle := a, published := s.published + 1 } by simp [Command.step, Command.setHandle, h, this]]
      exact ht
  obtain ⟨t, h1, h2⟩ := go l s ha (fun a h => hs a (by simp [h]))
  refine ⟨{ t with handle := Command.success, published := t.published + 1 }, ?_, rfl⟩
  rw [List.foldlM_append, h1]
  have : Command.noHandle < Command.success ∧ Command.success < Command.handleMax := by decide
  simp [Command.step, Command.setHandle, h2, this]

/-- The arguments of C88: a message to nobody. -/
theorem c88_example : acksOf 3 (execute plain [] .send 3 [.unknown .string, sv (lit "x")]).2 = [Command.failed, Command.success] ∧
    acksOf 3 (execute plain [] .send 3 [sv (lit "me"), sv (lit "x")]).2 = [Command.success] := by decide +kernel

/-- The values an item list contains for a command, in order. -/
def retsOf (cmd : Nat) : List Item → List Value
  | [] => []
  | .ret c v :: r => if c = cmd then v :: retsOf cmd r else retsOf cmd r
  | _ :: r => retsOf cmd r

theorem item_answers (s s' : Sys) (i : Item) (h : s.item i = some s') :
    (∀ c, s'.acks.filterMap (fun p => if p.1 = c then some p.2 else none) = s.acks.filterMap (fun p => if p.1 = c then some p.2 else none) ++ acksOf c [i]) ∧
      ∀ c, s'.rets.filterMap (fun p => if p.1 = c then some p.2 else none) = s.rets.filterMap (fun p => if p.1 = c then some p.2 else none) ++ retsOf c [i] := by
  cases i with
  | accept m o => cases o with
    | none => simp [Sys.item] at h
    | some x => simp only [Sys.item, Option.map_eq_some_iff] at h; obtain ⟨c, _, rfl⟩ := h; simp [acksOf, retsOf]
  | ack cmd x => simp only [Sys.item, Option.some.injEq] at h; subst h; simp [acksOf, retsOf, List.filterMap_cons]; intro c; by_cases e : cmd = c <;> simp [e]
  | ret cmd x => simp only [Sys.item, Option.some.injEq] at h; subst h; simp [acksOf, retsOf, List.filterMap_cons]; intro c; by_cases e : cmd = c <;> simp [e]
  | _ => simp only [Sys.item, Option.map_eq_some_iff] at h; obtain ⟨c, _, rfl⟩ := h; simp [acksOf, retsOf]

theorem acksOf_cons (c : Nat) (i : Item) (l : List Item) : acksOf c (i :: l) = acksOf c [i] ++ acksOf c l := by
  cases i <;> simp [acksOf] ; split <;> simp

theorem retsOf_cons (c : Nat) (i : Item) (l : List Item) : retsOf c (i :: l) = retsOf c [i] ++ retsOf c l := by
  cases i <;> simp [retsOf] ; split <;> simp

theorem items_answers (l : List Item) : ∀ (s s' : Sys), l.foldlM Sys.item s = some s' →
    (∀ c, s'.acks.filterMap (fun p => if p.1 = c then some p.2 else none) = s.acks.filterMap (fun p => if p.1 = c then some p.2 else none) ++ acksOf c l) ∧
      ∀ c, s'.rets.filterMap (fun p => if p.1 = c then some p.2 else none) = s.rets.filterMap (fun p => if p.1 = c then some p.2 else none) ++ retsOf c l := by
  induction l with
  | nil => intro s s' h; simp at h; subst h; simp [acksOf, retsOf]
  | cons i l ih =>
    intro s s' h
    simp only [List.foldlM_cons, Option.bind_eq_bind, Option.bind_eq_some_iff] at h
    obtain ⟨t, h1, h2⟩ := h
    obtain ⟨a1, a2⟩ := item_answers s t i h1
    obtain ⟨b1, b2⟩ := ih t s' h2
    exact ⟨fun c => by rw [b1, a1, acksOf_cons c i l, List.append_assoc], fun c => by rw [b2, a2, retsOf_cons c i l, List.append_assoc]⟩

/-- **C88, to the commands**: when the exec processes its input, every command is told each acknowledgement and each value that was put in for it, once, in the order they were put in, after those it was
told before. -/
theorem c88_processed (s s' : Sys) (h : s.process = some s') (c : Nat) :
    s'.acks.filterMap (fun p => if p.1 = c then some p.2 else none) = s.acks.filterMap (fun p => if p.1 = c then some p.2 else none) ++ acksOf c s.input ∧
      s'.rets.filterMap (fun p => if p.1 = c then some p.2 else none) = s.rets.filterMap (fun p => if p.1 = c then some p.2 else none) ++ retsOf c s.input :=
  ⟨(items_answers _ _ _ h).1 c, (items_answers _ _ _ h).2 c⟩

end Verif.Message
