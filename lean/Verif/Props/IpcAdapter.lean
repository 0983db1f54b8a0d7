import Verif.Ipc.Adapter
/-
C147: answers to commands sent through IPC. C148: the states an executive answers for.
-/
set_option autoImplicit false
set_option linter.unusedSimpArgs false
namespace Verif.Ipc.Adapter

section
variable {C V : Type} [DecidableEq C]

/-! ## Specification: commands -/

/-- The messages sent, in order; `none` for those that are no commands. -/
def messages (evs : List (Ev C V)) : List (Option C) := evs.filterMap (fun | .other => some none | .send c => some (some c) | _ => none)

/-- Messages are numbered; the commands with their numbers. -/
def numberFrom : Nat → List (Option C) → List (Nat × C)
  | _, [] => []
  | n, none :: ms => numberFrom (n + 1) ms
  | n, some c :: ms => (n, c) :: numberFrom (n + 1) ms

/-- The commands sent, each with the number of its message, counted from 1. -/
def numbered (evs : List (Ev C V)) : List (Nat × C) := numberFrom 1 (messages evs)

/-- How many commands have been recorded. -/
def records (evs : List (Ev C V)) : Nat := (evs.filter (fun | .record => true | _ => false)).length

/-- How many commands have been announced as sent. -/
def announces (evs : List (Ev C V)) : Nat := (evs.filter (fun | .announce => true | _ => false)).length

/-- The command sent with that number, if it has been recorded. -/
def owner (evs : List (Ev C V)) (n : Nat) : Option C := ((numbered evs).take (records evs)).lookup n

/-- What is heard at one point: the answer, for the command that was recorded with its number before. -/
def heardAt (before : List (Ev C V)) : Ev C V → List (Nat × C × Resp V)
  | .hear n r => ((owner before n).map (fun c => (n, c, r))).toList
  | _ => []

/-- The answers heard, in order. -/
def heard (evs : List (Ev C V)) : List (Nat × C × Resp V) := (List.range evs.length).flatMap (fun i => (evs[i]?.map (heardAt (evs.take i))).getD [])

/-! ## Proofs: commands -/

private theorem numberFrom_append (a b : List (Option C)) : ∀ k, numberFrom k (a ++ b) = numberFrom k a ++ numberFrom (k + a.length) b := by
  induction a with
  | nil => intro k; simp [numberFrom]
  | cons x a ih => intro k; cases x <;> simp [numberFrom, ih, Nat.add_assoc, Nat.add_comm 1]

private theorem numberFrom_bound (a : List (Option C)) : ∀ k, ∀ p ∈ numberFrom k a, k ≤ p.1 ∧ p.1 < k + a.length := by
  induction a with
  | nil => intro k p h; simp [numberFrom] at h
  | cons x a ih =>
    intro k p h
    cases x with
    | none => have := ih (k + 1) p h; simp; omega
    | some c =>
      rcases List.mem_cons.1 h with rfl | h
      · simp
      · have := ih (k + 1) p h; simp; omega

private theorem heard_snoc (evs : List (Ev C V)) (e : Ev C V) : heard (evs ++ [e]) = heard evs ++ heardAt evs e := by
  unfold heard
  rw [List.length_append, List.length_singleton, List.range_succ, List.flatMap_append]
  congr 1
  · rw [List.flatMap_def, List.flatMap_def]
    congr 1
    apply List.map_congr_left
    intro i hi
    rw [List.mem_range] at hi
    rw [List.getElem?_append_left hi, List.take_append_of_le_length (Nat.le_of_lt hi)]
  · simp

private theorem run_snoc (evs : List (Ev C V)) (e : Ev C V) : ∀ s : St C V, s.run (evs ++ [e]) = (s.run evs).bind (fun t => t.step e) := by
  induction evs with
  | nil => intro s; simp only [List.nil_append, St.run]; cases h : s.step e <;> simp [h]
  | cons a evs ih =>
    intro s
    simp only [List.cons_append, St.run]
    cases s.step a with
    | none => rfl
    | some t => exact ih t

private theorem numbered_snoc (evs : List (Ev C V)) (e : Ev C V) :
    numbered (evs ++ [e]) = numbered evs ++ (match e with | .send c => [((messages evs).length + 1, c)] | _ => []) := by
  unfold numbered messages
  rw [List.filterMap_append, numberFrom_append]
  cases e <;> simp [numberFrom, Nat.add_comm]

private theorem snoc_ind {α : Type} {P : List α → Prop} (h0 : P []) (h1 : ∀ l a, P l → P (l ++ [a])) (l : List α) : P l := by
  rw [← l.reverse_reverse]
  induction l.reverse with
  | nil => exact h0
  | cons a t ih => rw [List.reverse_cons]; exact h1 _ _ ih

/-- What holds after any history, as long as numbers have not been used up. -/
private structure Inv (evs : List (Ev C V)) (s : St C V) : Prop where
  next : s.next = (messages evs).length + 1
  pending : ∀ n, s.pending n = owner evs n
  idle : s.exec = none → (numbered evs).length = records evs ∧ announces evs = records evs
  busy : ∀ c n b, s.exec = some (c, n, b) → ∃ pre, numbered evs = pre ++ [(n, c)] ∧ announces evs = pre.length ∧ records evs = pre.length + (if b then 1 else 0)
  answers : s.queue.filter (fun x => !x.2.2.isSent) ++ s.disp.toList = heard evs
  quiet : ∀ x, s.disp = some x → x.2.2.isSent = false
  sent : s.queue.filter (fun x => x.2.2.isSent) = ((numbered evs).take (announces evs)).map (fun p => (p.1, p.2, .sent))
  destroyed : ∀ c, c ∈ s.destroyed ↔ Ev.destroy c ∈ evs

private theorem lookup_append {α : Type} (a : List (Nat × α)) (n : Nat) (c : α) (k : Nat) (h : ∀ p ∈ a, p.1 ≠ n) : (a ++ [(n, c)]).lookup k = if k = n then some c else a.lookup k := by
  induction a with
  | nil =>
    by_cases hk : k = n
    · simp [List.lookup, hk]
    · have : (k == n) = false := by simpa using hk
      simp [List.lookup, this, hk]
  | cons p a ih =>
    have ih := ih (fun q hq => h q (by simp [hq]))
    have hp := h p (by simp)
    obtain ⟨m, d⟩ := p
    by_cases hm : k = m
    · subst hm
      simp only [List.cons_append, List.lookup, beq_self_eq_true]
      rw [if_neg hp]
    · have : (k == m) = false := by simpa using hm
      simp only [List.cons_append, List.lookup, this, ih]

private theorem inv (evs : List (Ev C V)) : (messages evs).length + 1 < 2 ^ 32 → ∀ s, St.run {} evs = some s → Inv evs s := by
  induction evs using snoc_ind with
  | h0 =>
    intro _ s h
    cases h
    exact ⟨rfl, fun _ => rfl, fun _ => ⟨rfl, rfl⟩, (fun _ _ _ h => by cases h), rfl, (fun _ h => by cases h), rfl, fun _ => by simp⟩
  | h1 evs e ih =>
    intro hl s h
    rw [run_snoc] at h
    obtain ⟨t, ht, h⟩ := Option.bind_eq_some_iff.1 h
    have hle : (messages evs).length ≤ (messages (evs ++ [e])).length := by simp [messages]
    have i := ih (by omega) t ht
    have hn := numbered_snoc evs e
    cases e with
    | other =>
      cases h
      have hm : messages (evs ++ [Ev.other (C := C) (V := V)]) = messages evs ++ [none] := by simp [messages]
      have hr : records (evs ++ [Ev.other (C := C) (V := V)]) = records evs := by simp [records]
      have ha : announces (evs ++ [Ev.other (C := C) (V := V)]) = announces evs := by simp [announces]
      simp only [List.append_nil] at hn
      rw [hm] at hl; simp at hl
      refine ⟨?_, fun n => ?_, ?_, ?_, ?_, i.quiet, ?_, fun c => by simp [i.destroyed]⟩
      · simp only [succ32, i.next, hm]; rw [Nat.mod_eq_of_lt (by omega)]; simp
      · simp only [owner, hn, hr]; exact i.pending n
      · rw [hn, hr, ha]; exact i.idle
      · rw [hn, hr, ha]; exact i.busy
      · rw [heard_snoc, i.answers]; simp [heardAt]
      · rw [hn, ha]; exact i.sent
    | send c =>
      simp only [St.step] at h
      split at h
      · rename_i he
        cases h
        have hm : messages (evs ++ [Ev.send (V := V) c]) = messages evs ++ [some c] := by simp [messages]
        have hr : records (evs ++ [Ev.send (V := V) c]) = records evs := by simp [records]
        have ha : announces (evs ++ [Ev.send (V := V) c]) = announces evs := by simp [announces]
        obtain ⟨i1, i2⟩ := i.idle he
        rw [hm] at hl; simp at hl
        refine ⟨?_, fun n => ?_, ?_, ?_, ?_, i.quiet, ?_, fun c => by simp [i.destroyed]⟩
        · simp only [succ32, i.next, hm]; rw [Nat.mod_eq_of_lt (by omega)]; simp
        · simp only [owner, hn, hr]; rw [List.take_append_of_le_length (by omega)]; exact i.pending n
        · intro hc; simp at hc
        · intro c' n b hc
          simp only [Option.some.injEq, Prod.mk.injEq] at hc
          obtain ⟨rfl, rfl, rfl⟩ := hc
          exact ⟨numbered evs, by rw [hn, i.next], by rw [ha, i1, i2], by rw [hr, i1]; simp⟩
        · rw [heard_snoc, i.answers]; simp [heardAt]
        · rw [hn, ha, List.take_append_of_le_length (by omega)]; exact i.sent
      · cases h
    | record =>
      simp only [St.step] at h
      split at h
      · rename_i c n he
        cases h
        have hm : messages (evs ++ [Ev.record (C := C) (V := V)]) = messages evs := by simp [messages]
        have hr : records (evs ++ [Ev.record (C := C) (V := V)]) = records evs + 1 := by simp [records]
        have ha : announces (evs ++ [Ev.record (C := C) (V := V)]) = announces evs := by simp [announces]
        simp only [List.append_nil] at hn
        obtain ⟨pre, b1, b2, b3⟩ := i.busy _ _ _ he
        simp at b3
        have hlt : ∀ p ∈ pre, p.1 ≠ n := by
          have hs : ∀ (l : List (Option C)) (k : Nat), (numberFrom k l).Pairwise (fun a b => a.1 < b.1) := by
            intro l
            induction l with
            | nil => intro k; simp [numberFrom]
            | cons x l ihl =>
              intro k
              cases x with
              | none => exact ihl _
              | some c => exact List.pairwise_cons.2 ⟨fun p hp => by have := numberFrom_bound l (k + 1) p hp; simp; omega, ihl _⟩
          have := hs (messages evs) 1
          change (numbered evs).Pairwise _ at this
          rw [b1, List.pairwise_append] at this
          intro p hp
          exact Nat.ne_of_lt (this.2.2 p hp (n, c) (by simp))
        refine ⟨by rw [hm]; exact i.next, fun k => ?_, ?_, ?_, ?_, i.quiet, ?_, fun c => by simp [i.destroyed]⟩
        · have hpk := i.pending k
          simp only [owner, hn, hr, b1, b3] at hpk ⊢
          rw [List.take_of_length_le (by simp), lookup_append _ _ _ _ hlt, hpk]
          by_cases hk : k = n
          · simp [hk]
          · simp [hk]
        · intro hc; simp at hc
        · intro c' n' b hc
          simp only [Option.some.injEq, Prod.mk.injEq] at hc
          obtain ⟨rfl, rfl, rfl⟩ := hc
          exact ⟨pre, by rw [hn, b1], by rw [ha, b2], by rw [hr, b3]; simp⟩
        · rw [heard_snoc, i.answers]; simp [heardAt]
        · rw [hn, ha]; exact i.sent
      · cases h
    | announce =>
      simp only [St.step] at h
      split at h
      · rename_i c n he
        cases h
        have hm : messages (evs ++ [Ev.announce (C := C) (V := V)]) = messages evs := by simp [messages]
        have hr : records (evs ++ [Ev.announce (C := C) (V := V)]) = records evs := by simp [records]
        have ha : announces (evs ++ [Ev.announce (C := C) (V := V)]) = announces evs + 1 := by simp [announces]
        simp only [List.append_nil] at hn
        obtain ⟨pre, b1, b2, b3⟩ := i.busy _ _ _ he
        simp at b3
        refine ⟨by rw [hm]; exact i.next, fun k => ?_, ?_, ?_, ?_, i.quiet, ?_, fun c => by simp [i.destroyed]⟩
        · simp only [owner, hn, hr]; exact i.pending k
        · intro _; rw [hn, hr, ha, b1, b2, b3]; exact ⟨by simp, rfl⟩
        · intro _ _ _ hc; simp at hc
        · rw [heard_snoc]; simp only [heardAt, List.append_nil, ← i.answers]; simp [List.filter_append, Resp.isSent]
        · have hs := i.sent
          rw [b1, b2] at hs
          have e1 : (pre ++ [(n, c)]).take pre.length = pre := by simp
          have e2 : (pre ++ [(n, c)]).take (pre.length + 1) = pre ++ [(n, c)] := List.take_of_length_le (by simp)
          rw [hn, ha, b1, b2, e2, List.filter_append, hs, e1]
          simp [Resp.isSent]
      · cases h
    | hear n r =>
      have hm : messages (evs ++ [Ev.hear (C := C) n r]) = messages evs := by simp [messages]
      have hr : records (evs ++ [Ev.hear (C := C) n r]) = records evs := by simp [records]
      have ha : announces (evs ++ [Ev.hear (C := C) n r]) = announces evs := by simp [announces]
      simp only [List.append_nil] at hn
      have base : ∀ s : St C V, s.next = t.next → s.pending = t.pending → s.exec = t.exec → s.queue = t.queue → s.destroyed = t.destroyed →
          (s.disp.toList = t.disp.toList ++ heardAt evs (.hear n r)) → (∀ x, s.disp = some x → x.2.2.isSent = false) → Inv (evs ++ [.hear n r]) s := by
        intro s h1 h2 h3 h4 h5 h6 h7
        refine ⟨by rw [hm, h1]; exact i.next, fun k => ?_, ?_, ?_, ?_, h7, ?_, fun c => by simp [h5, i.destroyed]⟩
        · simp only [owner, hn, hr, h2]; exact i.pending k
        · rw [hn, hr, ha, h3]; exact i.idle
        · rw [hn, hr, ha, h3]; exact i.busy
        · rw [heard_snoc, h4, h6, ← i.answers, List.append_assoc]
        · rw [hn, ha, h4]; exact i.sent
      simp only [St.step] at h
      split at h
      · cases h
      · rename_i hns
        split at h
        · cases h
        · rename_i hd
          split at h
          · rename_i hp
            cases h
            refine base _ rfl rfl rfl rfl rfl ?_ i.quiet
            rw [i.pending] at hp
            simp [heardAt, hp]
          · rename_i c hp
            cases h
            refine base _ rfl rfl rfl rfl rfl ?_ ?_
            · rw [i.pending] at hp
              simp [heardAt, hp, hd]
            · intro x hx
              cases hx
              simpa using hns
    | put =>
      simp only [St.step] at h
      split at h
      · cases h
      · rename_i x hd
        cases h
        have hm : messages (evs ++ [Ev.put (C := C) (V := V)]) = messages evs := by simp [messages]
        have hr : records (evs ++ [Ev.put (C := C) (V := V)]) = records evs := by simp [records]
        have ha : announces (evs ++ [Ev.put (C := C) (V := V)]) = announces evs := by simp [announces]
        simp only [List.append_nil] at hn
        have hq := i.quiet x hd
        refine ⟨by rw [hm]; exact i.next, fun k => ?_, ?_, ?_, ?_, (fun _ h => by cases h), ?_, fun c => by simp [i.destroyed]⟩
        · simp only [owner, hn, hr]; exact i.pending k
        · rw [hn, hr, ha]; exact i.idle
        · rw [hn, hr, ha]; exact i.busy
        · rw [heard_snoc, ← i.answers]; simp [List.filter_append, hq, hd, heardAt]
        · rw [hn, ha, List.filter_append]; simp [hq, i.sent]
    | destroy c =>
      cases h
      have hm : messages (evs ++ [Ev.destroy (V := V) c]) = messages evs := by simp [messages]
      have hr : records (evs ++ [Ev.destroy (V := V) c]) = records evs := by simp [records]
      have ha : announces (evs ++ [Ev.destroy (V := V) c]) = announces evs := by simp [announces]
      simp only [List.append_nil] at hn
      refine ⟨by rw [hm]; exact i.next, fun k => ?_, ?_, ?_, ?_, i.quiet, ?_, fun d => ?_⟩
      · simp only [owner, hn, hr]; exact i.pending k
      · rw [hn, hr, ha]; exact i.idle
      · rw [hn, hr, ha]; exact i.busy
      · rw [heard_snoc, i.answers]; simp [heardAt]
      · rw [hn, ha]; exact i.sent
      · simp [i.destroyed, or_comm]

/-- **C147, the queue of the executive**: after any history in which fewer than 2^32 messages have been sent, the answers put into the queue (and the one just being put) are those heard, in order, each for the command that had been recorded with its number; and the
announcements in the queue are for the commands sent, in order, each once. -/
theorem c147_queue (evs : List (Ev C V)) (s : St C V) (h : St.run {} evs = some s) (hl : (messages evs).length + 1 < 2 ^ 32) :
    s.queue.filter (fun x => !x.2.2.isSent) ++ s.disp.toList = heard evs ∧
    s.queue.filter (fun x => x.2.2.isSent) = ((numbered evs).take (announces evs)).map (fun p => (p.1, p.2, .sent)) :=
  ⟨(inv evs hl s h).answers, (inv evs hl s h).sent⟩

private theorem mem_of_lookup {α : Type} : ∀ (l : List (Nat × α)) (n : Nat) (a : α), l.lookup n = some a → (n, a) ∈ l
  | [], _, _, h => by simp [List.lookup] at h
  | (m, b) :: l, n, a, h => by
    by_cases hm : n = m
    · subst hm; simp [List.lookup] at h; simp [h]
    · have : (n == m) = false := by simpa using hm
      simp only [List.lookup, this] at h
      exact List.mem_cons_of_mem _ (mem_of_lookup l n a h)

private theorem lookup_of_mem {α : Type} : ∀ (l : List (Nat × α)) (n : Nat) (a : α), l.Pairwise (fun a b => a.1 < b.1) → (n, a) ∈ l → l.lookup n = some a
  | [], _, _, _, h => by simp at h
  | (m, b) :: l, n, a, hp, h => by
    rw [List.pairwise_cons] at hp
    rcases List.mem_cons.1 h with h | h
    · cases h; simp [List.lookup]
    · have := hp.1 _ h
      have : (n == m) = false := by simp at this ⊢; omega
      simp only [List.lookup, this]
      exact lookup_of_mem l n a hp.2 h

private theorem sorted (l : List (Option C)) : ∀ k : Nat, (numberFrom k l).Pairwise (fun a b => a.1 < b.1) := by
  induction l with
  | nil => intro k; simp [numberFrom]
  | cons x l ihl =>
    intro k
    cases x with
    | none => exact ihl _
    | some c => exact List.pairwise_cons.2 ⟨fun p hp => by have := numberFrom_bound l (k + 1) p hp; simp; omega, ihl _⟩

private theorem mem_heard (evs : List (Ev C V)) (x : Nat × C × Resp V) : x ∈ heard evs ↔ ∃ pre post, evs = pre ++ .hear x.1 x.2.2 :: post ∧ owner pre x.1 = some x.2.1 := by
  obtain ⟨n, c, r⟩ := x
  induction evs using snoc_ind with
  | h0 => simp [heard]
  | h1 evs e ih =>
    rw [heard_snoc, List.mem_append, ih]
    constructor
    · rintro (⟨pre, post, rfl, h⟩ | h)
      · exact ⟨pre, post ++ [e], by simp, h⟩
      · cases e <;> simp only [heardAt, List.not_mem_nil] at h
        rename_i m q
        simp only [Option.mem_toList, Option.map_eq_some_iff, Prod.mk.injEq] at h
        obtain ⟨d, h1, rfl, rfl, rfl⟩ := h
        exact ⟨evs, [], rfl, h1⟩
    · rintro ⟨pre, post, he, h⟩
      rcases List.eq_nil_or_concat post with rfl | ⟨post', y, rfl⟩
      · have := List.append_inj' he rfl
        obtain ⟨rfl, h2⟩ := this
        simp only [List.cons.injEq, and_true] at h2
        subst h2
        right
        simp only at h
        simp [heardAt, h]
      · left
        rw [List.concat_eq_append, ← List.cons_append, ← List.append_assoc] at he
        exact ⟨pre, post', (List.append_inj' he rfl).1, h⟩

/-- **C147, to the right command**: an answer is put into the queue only for the command that was sent under its number, before it was heard. -/
theorem c147_own (evs : List (Ev C V)) (s : St C V) (h : St.run {} evs = some s) (hl : (messages evs).length + 1 < 2 ^ 32) (n : Nat) (c : C) (r : Resp V) (hr : r.isSent = false) (hq : (n, c, r) ∈ s.queue) :
    ∃ pre post, evs = pre ++ .hear n r :: post ∧ (n, c) ∈ numbered pre := by
  have : (n, c, r) ∈ heard evs := by
    rw [← (c147_queue evs s h hl).1]
    simp [hq, hr]
  obtain ⟨pre, post, h1, h2⟩ := (mem_heard evs _).1 this
  exact ⟨pre, post, h1, List.mem_of_mem_take (mem_of_lookup _ _ _ h2)⟩

/-- **C147, nothing lost**, if the answer is heard after the command has been recorded. -/
theorem c147_kept_partial (evs : List (Ev C V)) (s : St C V) (h : St.run {} evs = some s) (hl : (messages evs).length + 1 < 2 ^ 32) (n : Nat) (c : C) (r : Resp V)
    (pre post : List (Ev C V)) (he : evs = pre ++ .hear n r :: post) (hc : (n, c) ∈ (numbered pre).take (records pre)) :
    (n, c, r) ∈ s.queue ∨ s.disp = some (n, c, r) := by
  have : (n, c, r) ∈ heard evs := by
    rw [mem_heard]
    refine ⟨pre, post, he, lookup_of_mem _ _ _ ?_ hc⟩
    exact (sorted (messages pre) 1).sublist (List.take_sublist _ _)
  rw [← (c147_queue evs s h hl).1, List.mem_append] at this
  rcases this with h | h
  · exact .inl (List.mem_filter.1 h).1
  · exact .inr (by simpa using h)

private theorem queue_grows (es : List (Ev C V)) : ∀ (s t : St C V), s.run es = some t → ∃ l, t.queue = s.queue ++ l := by
  induction es with
  | nil => intro s t h; cases h; exact ⟨[], by simp⟩
  | cons e es ih =>
    intro s t h
    obtain ⟨u, hu, h⟩ := Option.bind_eq_some_iff.1 h
    obtain ⟨l, hl⟩ := ih u t h
    have : ∃ l', u.queue = s.queue ++ l' := by
      cases e <;> simp only [St.step] at hu <;> (repeat' split at hu) <;> first | (cases hu; done) | (cases hu; exact ⟨_, rfl⟩) | (cases hu; exact ⟨[], by simp⟩)
    obtain ⟨l', hl'⟩ := this
    exact ⟨l' ++ l, by rw [hl, hl', List.append_assoc]⟩

private theorem run_append (a b : List (Ev C V)) : ∀ s : St C V, s.run (a ++ b) = (s.run a).bind (fun t => t.run b) := by
  induction a with
  | nil => intro s; rfl
  | cons e a ih =>
    intro s
    simp only [List.cons_append, St.run]
    cases s.step e with
    | none => rfl
    | some t => exact ih t

/-- **C147, sent first**: if no answer to a command is heard before it is announced as sent, the announcement precedes all answers in the queue. -/
theorem c147_sent_first_partial (pre post : List (Ev C V)) (t s : St C V) (n : Nat) (c : C) (b : Bool) (ht : St.run {} pre = some t) (hx : t.exec = some (c, n, b)) (h : St.run {} (pre ++ .announce :: post) = some s)
    (hl : (messages pre).length + 1 < 2 ^ 32) (hn : ∀ r, .hear n r ∉ pre) :
    ∃ l1 l2, s.queue = l1 ++ (n, c, .sent) :: l2 ∧ ∀ x ∈ l1, x.1 ≠ n := by
  have i := inv pre hl t ht
  rw [run_append, ht] at h
  change ((t.step .announce).bind fun u => u.run post) = some s at h
  obtain ⟨u, hu, h⟩ := Option.bind_eq_some_iff.1 h
  simp only [St.step, hx] at hu
  split at hu
  · rename_i c' n' he
    cases he; cases hu
    obtain ⟨l, hq⟩ := queue_grows post _ _ h
    refine ⟨t.queue, l, by simp [hq], fun x hxq hxn => ?_⟩
    obtain ⟨p, b1, b2, b3⟩ := i.busy _ _ _ hx
    by_cases hs : x.2.2.isSent = true
    · have : x ∈ t.queue.filter (fun x => x.2.2.isSent) := List.mem_filter.2 ⟨hxq, hs⟩
      have e1 : (p ++ [(n, c)]).take p.length = p := by simp
      rw [i.sent, b1, b2, e1, List.mem_map] at this
      obtain ⟨q, hq1, rfl⟩ := this
      have hsort := sorted (messages pre) 1
      change (numbered pre).Pairwise _ at hsort
      rw [b1, List.pairwise_append] at hsort
      have h6 := hsort.2.2 q hq1 (n, c) (by simp)
      simp at h6 hxn; omega
    · have : x ∈ heard pre := by
        rw [← i.answers]
        exact List.mem_append_left _ (List.mem_filter.2 ⟨hxq, by simpa using hs⟩)
      obtain ⟨p1, p2, h7, _⟩ := (mem_heard pre x).1 this
      rw [hxn] at h7
      exact hn x.2.2 (by rw [h7]; simp)
  · cases hu

/-- **C147, deleted commands**: a command that has been deleted is used exactly if an answer to it is heard afterwards. -/
theorem c147_destroyed (evs : List (Ev C V)) (s : St C V) (h : St.run {} evs = some s) (hl : (messages evs).length + 1 < 2 ^ 32) :
    s.crashed = true ↔ ∃ pre n r post c, evs = pre ++ .hear n r :: post ∧ owner pre n = some c ∧ .destroy c ∈ pre := by
  induction evs using snoc_ind generalizing s with
  | h0 => cases h; simp
  | h1 evs e ih =>
    rw [run_snoc] at h
    obtain ⟨t, ht, h⟩ := Option.bind_eq_some_iff.1 h
    have hle : (messages evs).length ≤ (messages (evs ++ [e])).length := by simp [messages]
    have i := inv evs (by omega) t ht
    have ih := ih t ht (by omega)
    have old : (∃ pre n r post c, evs = pre ++ .hear n r :: post ∧ owner pre n = some c ∧ Ev.destroy c ∈ pre) → ∃ pre n r post c, evs ++ [e] = pre ++ .hear n r :: post ∧ owner pre n = some c ∧ Ev.destroy c ∈ pre := by
      rintro ⟨pre, n, r, post, c, rfl, h1, h2⟩
      exact ⟨pre, n, r, post ++ [e], c, by simp, h1, h2⟩
    have new : (∃ pre n r post c, evs ++ [e] = pre ++ .hear n r :: post ∧ owner pre n = some c ∧ Ev.destroy c ∈ pre) →
        (∃ pre n r post c, evs = pre ++ .hear n r :: post ∧ owner pre n = some c ∧ Ev.destroy c ∈ pre) ∨ (∃ n r c, e = .hear n r ∧ owner evs n = some c ∧ Ev.destroy c ∈ evs) := by
      rintro ⟨pre, n, r, post, c, he, h1, h2⟩
      rcases List.eq_nil_or_concat post with rfl | ⟨post', y, rfl⟩
      · obtain ⟨rfl, h3⟩ := List.append_inj' he rfl
        simp only [List.cons.injEq, and_true] at h3
        exact .inr ⟨n, r, c, h3, h1, h2⟩
      · rw [List.concat_eq_append, ← List.cons_append, ← List.append_assoc] at he
        exact .inl ⟨pre, n, r, post', c, (List.append_inj' he rfl).1, h1, h2⟩
    have same : s.crashed = t.crashed → (∀ n r c, e = .hear n r → owner evs n = some c → Ev.destroy c ∈ evs → False) →
        (s.crashed = true ↔ ∃ pre n r post c, evs ++ [e] = pre ++ .hear n r :: post ∧ owner pre n = some c ∧ Ev.destroy c ∈ pre) := by
      intro h1 h2
      rw [h1, ih]
      exact ⟨old, fun h => (new h).elim id (fun ⟨n, r, c, a, b, d⟩ => (h2 n r c a b d).elim)⟩
    cases e with
    | hear n r =>
      simp only [St.step] at h
      split at h
      · cases h
      · split at h
        · cases h
        · split at h
          · rename_i hp
            cases h
            rw [i.pending] at hp
            exact same rfl (fun m q c he h1 _ => by cases he; rw [hp] at h1; cases h1)
          · rename_i c hp
            cases h
            rw [i.pending] at hp
            simp only [Bool.or_eq_true, ih, List.contains_iff_mem, i.destroyed]
            constructor
            · rintro (h | h)
              · exact old h
              · exact ⟨evs, n, r, [], c, rfl, hp, h⟩
            · intro h
              rcases new h with h | ⟨m, q, d, he, h1, h2⟩
              · exact .inl h
              · cases he; rw [hp] at h1; cases h1; exact .inr h2
    | other => cases h; exact same rfl (fun _ _ _ he _ _ => by cases he)
    | destroy c => cases h; exact same rfl (fun _ _ _ he _ _ => by cases he)
    | send c => simp only [St.step] at h; split at h <;> cases h; exact same rfl (fun _ _ _ he _ _ => by cases he)
    | record => simp only [St.step] at h; split at h <;> cases h; exact same rfl (fun _ _ _ he _ _ => by cases he)
    | announce => simp only [St.step] at h; split at h <;> cases h; exact same rfl (fun _ _ _ he _ _ => by cases he)
    | put => simp only [St.step] at h; split at h <;> cases h; exact same rfl (fun _ _ _ he _ _ => by cases he)

/-- **C147 is false** of a fast answer: heard before the command is recorded, it is lost. -/
theorem c147_early_refuted (c : C) (r : Resp V) (hr : r.isSent = false) : ∃ s, St.run {} [.send c, .hear 1 r, .record, .announce] = some s ∧ s.queue = [(1, c, .sent)] ∧ s.disp = none := by
  simp [St.run, St.step, hr]

/-- **C147 is false** of one a little later: the acknowledgement is before the announcement, so the last handle says that the command has just been sent. -/
theorem c147_sent_last_refuted (c : C) (r : Resp V) (hr : r.isSent = false) : ∃ s, St.run {} [.send c, .record, .hear 1 r, .put, .announce] = some s ∧ s.queue = [(1, c, r), (1, c, .sent)] := by
  simp [St.run, St.step, hr]

/-- **C147 is false** of a command executed again: the answer to the first execution, heard after the second has been announced, is taken for one to the second, since both are the same command to the executive. -/
theorem c147_again_refuted (c : C) (r : Resp V) (hr : r.isSent = false) : ∃ s, St.run {} [.send c, .record, .announce, .send c, .record, .announce, .hear 1 r, .put] = some s ∧
    s.queue.map (fun x => (x.2.1, x.2.2)) = [(c, .sent), (c, .sent), (c, r)] ∧ owner (V := V) [.send c, .record, .announce, .send c, .record, .announce] 1 = some c := by
  simp [St.run, St.step, succ32, hr, owner, numbered, numberFrom, messages, records, List.lookup]

/-- **C147 is false** after the plan has been deleted: commands are never forgotten, so a late answer uses one that is no more. -/
theorem c147_destroyed_refuted (c : C) (r : Resp V) (hr : r.isSent = false) : ∃ s, St.run {} [.send c, .record, .announce, .destroy c, .hear 1 r] = some s ∧ s.crashed = true := by
  simp [St.run, St.step, hr]

/-- Two commands and another message between them, answered in the other order. -/
example : ∃ s, St.run ({} : St String Nat) [.send "a", .record, .announce, .other, .send "b", .record, .announce, .hear 3 (.value 7), .put, .hear 1 (.ack 54), .put] = some s ∧
    s.queue = [(1, "a", .sent), (3, "b", .sent), (3, "b", .value 7), (1, "a", .ack 54)] := ⟨_, rfl, rfl⟩

end

/-! ## States answered for -/

section
variable {W : Type} [DecidableEq W]

/-- The value last given to a state by `UpdateLookup`. -/
def lastSet (us : List (String × W × List W)) (name : String) (ps : List W) : Option W :=
  (us.filterMap (fun u => if u.1 = name ∧ u.2.2 = ps then some u.2.1 else none)).getLast?

/-- The value it is declared with: the first declaration counts. -/
def default (ds : List (String × W)) (name : String) : Option W := (ds.find? (fun d => d.1 = name)).map Prod.snd

private theorem declared_spec (ds : List (String × W)) : (∀ name, name ∈ (declared ds).names ↔ name ∈ ds.map Prod.fst) ∧
    (∀ name, (declared ds).values (name, []) = default ds name) ∧ ∀ name p ps, (declared ds).values (name, p :: ps) = none := by
  induction ds using snoc_ind with
  | h0 => exact ⟨by simp [declared], by simp [declared, default], by simp [declared]⟩
  | h1 ds d ih =>
    obtain ⟨i1, i2, i3⟩ := ih
    have e : declared (ds ++ [d]) = (declared ds).declare d := by simp [declared]
    rw [e]
    unfold Table.declare
    by_cases hd : d.1 ∈ (declared ds).names
    · rw [if_pos hd]
      have hd' := (i1 _).1 hd
      refine ⟨fun name => ?_, fun name => ?_, i3⟩
      · rw [i1, List.map_append, List.mem_append]
        constructor
        · exact .inl
        · rintro (h | h)
          · exact h
          · simp at h; rw [h]; exact hd'
      · rw [i2]
        unfold default
        rw [List.find?_append]
        cases hf : ds.find? (fun x => decide (x.1 = name)) with
        | some x => rfl
        | none =>
          have : d.1 ≠ name := by
            rintro rfl
            obtain ⟨x, hx, hx'⟩ := List.mem_map.1 hd'
            rw [List.find?_eq_none] at hf
            exact hf x hx (by simp [hx'])
          simp [this]
    · rw [if_neg hd]
      have hd' := fun h => hd ((i1 _).2 h)
      refine ⟨fun name => ?_, fun name => ?_, fun name p ps => ?_⟩
      · simp [Table.put, i1]
      · simp only [Table.put, Prod.mk.injEq, and_true]
        by_cases hn : name = d.1
        · subst hn
          rw [if_pos rfl]
          unfold default
          rw [List.find?_append]
          have : ds.find? (fun x => decide (x.1 = d.1)) = none := by
            rw [List.find?_eq_none]
            intro x hx hx'
            exact hd' (List.mem_map.2 ⟨x, hx, by simpa using hx'⟩)
          simp [this]
        · rw [if_neg hn]
          simp only [i2]
          unfold default
          rw [List.find?_append]
          have : d.1 ≠ name := fun h => hn h.symm
          simp [this]
      · simp [Table.put, i3]

private theorem updates_spec (ds : List (String × W)) (us : List (String × W × List W)) : (updates (declared ds) us).names = (declared ds).names ∧
    ∀ name ps, (updates (declared ds) us).values (name, ps) = if name ∈ ds.map Prod.fst then (lastSet us name ps).or ((declared ds).values (name, ps)) else none := by
  induction us using snoc_ind with
  | h0 =>
    refine ⟨rfl, fun name ps => ?_⟩
    simp only [updates, List.foldl_nil, lastSet, List.filterMap_nil, List.getLast?_nil, Option.none_or]
    by_cases h : name ∈ ds.map Prod.fst
    · rw [if_pos h]
    · rw [if_neg h]
      cases ps with
      | nil =>
        rw [(declared_spec ds).2.1]
        simp only [default, Option.map_eq_none_iff, List.find?_eq_none]
        intro x hx hx'
        exact h (List.mem_map.2 ⟨x, hx, by simpa using hx'⟩)
      | cons p ps => exact (declared_spec ds).2.2 name p ps
  | h1 us u ih =>
    obtain ⟨i1, i2⟩ := ih
    obtain ⟨m, v, qs⟩ := u
    have e : updates (declared ds) (us ++ [(m, v, qs)]) = (updateLookup (updates (declared ds) us) m v qs).table := by simp [updates]
    have hls : ∀ name ps, lastSet (us ++ [(m, v, qs)]) name ps = if m = name ∧ qs = ps then some v else lastSet us name ps := by
      intro name ps
      unfold lastSet
      rw [List.filterMap_append]
      by_cases h : m = name ∧ qs = ps
      · simp [h]
      · simp [h]
    rw [e]
    unfold updateLookup
    rw [i1]
    by_cases hm : m ∈ (declared ds).names
    · rw [if_pos hm]
      refine ⟨i1, fun name ps => ?_⟩
      simp only [Table.put, hls, Prod.mk.injEq]
      by_cases h : m = name ∧ qs = ps
      · obtain ⟨rfl, rfl⟩ := h
        rw [if_pos ⟨rfl, rfl⟩, if_pos ((((declared_spec ds).1 m).1 hm)), if_pos ⟨rfl, rfl⟩]; rfl
      · rw [if_neg (fun c => h ⟨c.1.symm, c.2.symm⟩), if_neg h, i2]
    · rw [if_neg hm]
      refine ⟨i1, fun name ps => ?_⟩
      simp only [hls, i2]
      by_cases h : m = name ∧ qs = ps
      · obtain ⟨rfl, rfl⟩ := h
        have : m ∉ ds.map Prod.fst := fun c => hm (((declared_spec ds).1 m).2 c)
        rw [if_neg this, if_neg this]
      · rw [if_neg h]

/-- **C148, asked by others**: the answer is the value last set for that state; if there is none, that of the state without parameters, and if it was not set either, the value it was declared with. States that are not declared are not answered for. -/
theorem c148_asked (ds : List (String × W)) (us : List (String × W × List W)) (name : String) (ps : List W) :
    asked (updates (declared ds) us) name ps = if name ∈ ds.map Prod.fst then (lastSet us name ps).or ((lastSet us name []).or (default ds name)) else none := by
  obtain ⟨_, h2, h3⟩ := declared_spec ds
  have u := (updates_spec ds us).2
  unfold asked
  rw [u, u]
  by_cases h : name ∈ ds.map Prod.fst
  · simp only [if_pos h, h2]
    cases ps with
    | nil =>
      rw [h2]
      cases lastSet us name [] with
      | some v => rfl
      | none => cases default ds name <;> rfl
    | cons p ps =>
      rw [h3]
      cases lastSet us name (p :: ps) with
      | some v => rfl
      | none => simp
  · simp only [if_neg h, ite_self]

/-- **C148, looked up in the plan** itself: the same without parameters; with parameters only what was set for exactly that state, else the others are asked. -/
theorem c148_lookup_partial (ds : List (String × W)) (us : List (String × W × List W)) (name : String) (ps : List W) :
    (ps = [] → lookup (updates (declared ds) us) name ps = asked (updates (declared ds) us) name ps) ∧
    (ps ≠ [] → lookup (updates (declared ds) us) name ps = if name ∈ ds.map Prod.fst then lastSet us name ps else none) := by
  constructor
  · rintro rfl
    unfold lookup asked
    cases h : (updates (declared ds) us).values (name, []) <;> simp
  · intro hne
    unfold lookup
    rw [(updates_spec ds us).2]
    cases ps with
    | nil => exact absurd rfl hne
    | cons p ps => rw [(declared_spec ds).2.2]; simp

/-- **C148 is false** of a state with parameters that were never set: others are told the default, the plan's own lookup is sent to the others. -/
theorem c148_default_refuted (name : String) (v p : W) (ps : List W) : asked (declared [(name, v)]) name (p :: ps) = some v ∧ lookup (declared [(name, v)]) name (p :: ps) = none := by
  simp [asked, lookup, declared, Table.declare, Table.put]

/-- **C148, who is told**: `UpdateLookup` succeeds exactly if the name is declared; then the executive is told the state and the value, and so are the others, unless the name is empty. -/
theorem c148_told (ds : List (String × W)) (us : List (String × W × List W)) (name : String) (v : W) (ps : List W) :
    let u := updateLookup (updates (declared ds) us) name v ps
    (u.success = true ↔ name ∈ ds.map Prod.fst) ∧ u.inside = (if name ∈ ds.map Prod.fst then some ((name, ps), v) else none) ∧
    (name ≠ "" → u.outside.bind telemetry = u.inside) := by
  have hn : name ∈ (updates (declared ds) us).names ↔ name ∈ ds.map Prod.fst := by rw [(updates_spec ds us).1]; exact (declared_spec ds).1 name
  simp only [updateLookup, hn]
  by_cases h : name ∈ ds.map Prod.fst
  · simp only [if_pos h]
    exact ⟨by simp [h], by trivial, fun hne => by simp [telemetry, hne]⟩
  · simp only [if_neg h]
    exact ⟨by simp [h], by trivial, fun _ => rfl⟩

/-- Declared twice, set once with parameters. -/
example : asked (updates (declared [("x", 1), ("y", 2), ("x", 3)]) [("x", 9, [4]), ("z", 5, [])]) "x" [4] = some 9 ∧ asked (updates (declared [("x", 1), ("y", 2), ("x", 3)]) [("x", 9, [4]), ("z", 5, [])]) "x" [5] = some 1 ∧
    asked (updates (declared [("x", 1), ("y", 2), ("x", 3)]) [("x", 9, [4]), ("z", 5, [])]) "z" [] = none := ⟨rfl, rfl, rfl⟩
end

end Verif.Ipc.Adapter
