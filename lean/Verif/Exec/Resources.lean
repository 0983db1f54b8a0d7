import Verif.Exec.Model
/-
Lemmas about notification and resources.
-/
namespace Verif.Exec
open Verif.Node

variable {Val Env : Type} (P : Plan Val Env)

@[simp] theorem set_self {α β : Type} [DecidableEq α] (f : α → β) (a : α) (b : β) : set f a b a = b := by simp [set]
@[simp] theorem set_ne {α β : Type} [DecidableEq α] (f : α → β) (a x : α) (b : β) (h : x ≠ a) : set f a b x = f x := by
  simp [set, h]
theorem set_apply {α β : Type} [DecidableEq α] (f : α → β) (a x : α) (b : β) : set f a b x = if x = a then b else f x := rfl

/-! ## Frames -/

/-- `s'` differs from `s` only in statuses, candidates and the error flag. -/
def QFrame (s s' : St Val Env) : Prop := ∃ q c e, s' = { s with q := q, cand := c, err := e }

/-- `s'` differs from `s` only in statuses, holders, waiters and the error flag. -/
def RFrame (s s' : St Val Env) : Prop := ∃ q h w e, s' = { s with q := q, holder := h, waiters := w, err := e }

theorem QFrame.refl (s : St Val Env) : QFrame s s := ⟨s.q, s.cand, s.err, rfl⟩
theorem QFrame.trans {a b c : St Val Env} (h1 : QFrame a b) (h2 : QFrame b c) : QFrame a c := by
  obtain ⟨q, d, e, rfl⟩ := h1; obtain ⟨q', d', e', rfl⟩ := h2; exact ⟨q', d', e', rfl⟩
theorem RFrame.refl (s : St Val Env) : RFrame s s := ⟨s.q, s.holder, s.waiters, s.err, rfl⟩
theorem RFrame.trans {a b c : St Val Env} (h1 : RFrame a b) (h2 : RFrame b c) : RFrame a c := by
  obtain ⟨q, h, w, e, rfl⟩ := h1; obtain ⟨q', h', w', e', rfl⟩ := h2; exact ⟨q', h', w', e', rfl⟩

theorem notify_frame (n : NodeId) (s : St Val Env) : QFrame s (notify n s) := ⟨_, _, _, rfl⟩

theorem notifyAll_frame (ns : List NodeId) (s : St Val Env) : QFrame s (notifyAll ns s) := by
  induction ns generalizing s with
  | nil => exact QFrame.refl s
  | cons n ns ih => exact (notify_frame n s).trans (ih (notify n s))

/-! ## Resources -/

theorem addWaiter_frame (r n) (s : St Val Env) : RFrame s (addWaiter r n s) := ⟨_, _, _, _, rfl⟩
theorem removeWaiter_frame (r n) (s : St Val Env) : RFrame s (removeWaiter r n s) := ⟨_, _, _, _, rfl⟩
theorem release_frame (r n) (s : St Val Env) : RFrame s (release r n s) := by
  unfold release; split
  · exact ⟨_, _, _, _, rfl⟩
  · exact RFrame.refl s
theorem acquire_frame (r n) (s : St Val Env) : RFrame s (acquire r n s).2 := by
  unfold acquire; split <;> exact ⟨_, _, _, _, rfl⟩

theorem acquireMutexes_frame (n ms) (s : St Val Env) : RFrame s (acquireMutexes P n ms s).2 := by
  induction ms generalizing s with
  | nil => exact RFrame.refl s
  | cons m ms ih =>
    simp only [acquireMutexes]
    split
    · exact (acquire_frame _ _ s).trans (ih _)
    · exact (acquire_frame _ _ s).trans ⟨_, _, _, _, rfl⟩

theorem giveBack_frame (n ms) (s : St Val Env) : RFrame s (giveBack n ms s) := by
  induction ms generalizing s with
  | nil => exact RFrame.refl s
  | cons m ms ih => exact ((release_frame _ _ s).trans (addWaiter_frame _ _ _)).trans (ih _)

theorem tryAcquire_frame (n) (s : St Val Env) : RFrame s (tryAcquire P n s).2 := by
  simp only [tryAcquire]
  have h0 := acquireMutexes_frame P n (P.node n).mutexes s
  split <;> split <;> (try split)
  all_goals first
    | exact h0.trans (acquire_frame _ _ _)
    | exact h0
    | exact (h0.trans (acquire_frame _ _ _)).trans (giveBack_frame _ _ _)
    | exact (h0.trans (addWaiter_frame _ _ _)).trans (giveBack_frame _ _ _)
    | exact h0.trans (giveBack_frame _ _ _)
    | (rename_i hh; simp at hh)

theorem releaseAll_frame (n rs) (s : St Val Env) : RFrame s (releaseAll n rs s) := by
  unfold releaseAll
  induction rs generalizing s with
  | nil => exact RFrame.refl s
  | cons r rs ih => exact (release_frame r n s).trans (ih _)

theorem releaseReservations_frame (n) (s : St Val Env) : RFrame s (releaseReservations P n s) := by
  unfold releaseReservations
  generalize resources P n = rs
  induction rs generalizing s with
  | nil => exact RFrame.refl s
  | cons r rs ih => exact (removeWaiter_frame r n s).trans (ih _)

/-- How a resource operation of node `n` may change statuses, holders and waiters. -/
structure REff (n : NodeId) (s s' : St Val Env) : Prop where
  /-- A status changes only by "resource available", and only that of a node that waits for something. -/
  q : ∀ k, s'.q k = s.q k ∨ (s'.q k = availQ (s.q k) ∧ ∃ r, k ∈ s.waiters r ∨ (k = n ∧ r ∈ resources P n))
  /-- Other nodes neither lose nor gain resources. -/
  holder : ∀ r k, k ≠ n → (s'.holder r = some k ↔ s.holder r = some k)
  /-- New waiters: only `n`, only for its resources. -/
  waiters : ∀ r k, k ∈ s'.waiters r → k ∈ s.waiters r ∨ (k = n ∧ r ∈ resources P n)
  /-- Others stay on the wait lists. -/
  waitersKeep : ∀ r k, k ≠ n → k ∈ s.waiters r → k ∈ s'.waiters r
  nodup : (∀ r, (s.waiters r).Nodup) → ∀ r, (s'.waiters r).Nodup
  /-- Only resources of `n` are touched. -/
  gain : ∀ r, s'.holder r = some n → s.holder r = some n ∨ r ∈ resources P n

theorem availQ_idem (x : QStatus) : availQ (availQ x) = availQ x := by cases x <;> rfl

theorem REff.refl (n) (s : St Val Env) : REff P n s s :=
  ⟨fun _ => .inl rfl, fun _ _ _ => Iff.rfl, fun _ _ h => .inl h, fun _ _ _ h => h, fun h => h, fun _ h => .inl h⟩

variable {P} in
theorem REff.trans {n} {a b c : St Val Env} (h1 : REff P n a b) (h2 : REff P n b c) : REff P n a c := by
  refine ⟨?_, fun r k hk => (h2.holder r k hk).trans (h1.holder r k hk), ?_, fun r k hk h => h2.waitersKeep r k hk (h1.waitersKeep r k hk h),
    fun h => h2.nodup (h1.nodup h), ?_⟩
  · intro k
    rcases h2.q k with e2 | ⟨e2, r2, w2⟩
    · rw [e2]; exact h1.q k
    · have w : ∃ r, k ∈ a.waiters r ∨ (k = n ∧ r ∈ resources P n) := by
        rcases w2 with w2 | w2
        · exact ⟨r2, h1.waiters r2 k w2⟩
        · exact ⟨r2, .inr w2⟩
      rcases h1.q k with e1 | ⟨e1, _⟩
      · right; exact ⟨by rw [e2, e1], w⟩
      · right; exact ⟨by rw [e2, e1, availQ_idem], w⟩
  · intro r k hk
    rcases h2.waiters r k hk with h | h
    · exact h1.waiters r k h
    · exact .inr h
  · intro r hr
    rcases h2.gain r hr with h | h
    · exact h1.gain r h
    · exact .inr h

theorem addWaiter_eff {r n} (hr : r ∈ resources P n) (s : St Val Env) : REff P n s (addWaiter r n s) := by
  refine ⟨fun _ => .inl rfl, fun _ _ _ => Iff.rfl, ?_, ?_, ?_, fun _ h => .inl h⟩
  · intro r' k hk
    simp only [addWaiter, set_apply] at hk
    split at hk
    · rename_i e; subst e
      split at hk
      · exact .inl hk
      · rcases List.mem_append.1 hk with h | h
        · exact .inl h
        · simp at h; exact .inr ⟨h, hr⟩
    · exact .inl hk
  · intro r' k _ hk
    simp only [addWaiter, set_apply]
    split
    · rename_i e; subst e; split
      · exact hk
      · exact List.mem_append_left _ hk
    · exact hk
  · intro h r'
    simp only [addWaiter, set_apply]
    split
    · split
      · exact h r
      · rename_i hn; rw [List.nodup_append]; refine ⟨h r, by simp, ?_⟩
        intro a ha b hb; simp at hb; subst hb; intro e; subst e; exact hn ha
    · exact h r'

theorem addWaiter_mem (r n) (s : St Val Env) : n ∈ (addWaiter r n s).waiters r := by
  simp only [addWaiter, set_self]; split
  · assumption
  · simp

theorem removeWaiter_eff (r n) (s : St Val Env) : REff P n s (removeWaiter r n s) := by
  refine ⟨fun _ => .inl rfl, fun _ _ _ => Iff.rfl, ?_, ?_, ?_, fun _ h => .inl h⟩
  · intro r' k hk
    simp only [removeWaiter, set_apply] at hk
    split at hk
    · rename_i e; subst e; exact .inl (List.mem_of_mem_erase hk)
    · exact .inl hk
  · intro r' k hn hk
    simp only [removeWaiter, set_apply]
    split
    · rename_i e; subst e; exact (List.mem_erase_of_ne hn).2 hk
    · exact hk
  · intro h r'
    simp only [removeWaiter, set_apply]
    split
    · exact (h r).erase n
    · exact h r'

theorem release_eff (r n) (s : St Val Env) : REff P n s (release r n s) := by
  unfold release
  split
  · rename_i hh
    refine ⟨?_, ?_, fun _ _ h => .inl h, fun _ _ _ h => h, fun h => h, ?_⟩
    · intro k
      by_cases hk : k ∈ s.waiters r
      · right; simp only [hk, if_true]; exact ⟨trivial, r, .inl hk⟩
      · left; simp [hk]
    · intro r' k hk
      simp only [set_apply]
      split
      · rename_i e; subst e
        rw [hh]; simp [Ne.symm hk]
      · exact Iff.rfl
    · intro r' h
      simp only [set_apply] at h
      split at h
      · simp at h
      · exact .inl h
  · exact REff.refl P n s

theorem acquire_eff {r n} (hr : r ∈ resources P n) (s : St Val Env) : REff P n s (acquire r n s).2 := by
  unfold acquire
  split
  · exact addWaiter_eff P hr s
  · rename_i hh
    have h0 : REff P n s { s with holder := set s.holder r (some n) } := by
      refine ⟨fun _ => .inl rfl, ?_, fun _ _ h => .inl h, fun _ _ _ h => h, fun h => h, ?_⟩
      · intro r' k hk
        simp only [set_apply]
        split
        · rename_i e; subst e; rw [hh]; simp [Ne.symm hk]
        · exact Iff.rfl
      · intro r' h
        simp only [set_apply] at h
        split at h
        · rename_i e; subst e; exact .inr hr
        · exact .inl h
    exact h0.trans (removeWaiter_eff P r n _)

theorem mutex_mem_resources {n m} (h : m ∈ (P.node n).mutexes) : Res.mutex m ∈ resources P n := by
  simp [resources, h]

theorem var_mem_resources {n} (h : (P.node n).type = .assignment) : Res.var (P.node n).dest ∈ resources P n := by
  simp [resources, h]

theorem acquireMutexes_eff (n ms) (hms : ∀ m ∈ ms, m ∈ (P.node n).mutexes) (s : St Val Env) :
    REff P n s (acquireMutexes P n ms s).2 := by
  induction ms generalizing s with
  | nil => exact REff.refl P n s
  | cons m ms ih =>
    have hm := acquire_eff P (mutex_mem_resources P (hms m (by simp))) s
    simp only [acquireMutexes]
    split
    · exact hm.trans (ih (fun m h => hms m (by simp [h])) _)
    · exact hm.trans ⟨fun _ => .inl rfl, fun _ _ _ => Iff.rfl, fun _ _ h => .inl h, fun _ _ _ h => h, fun h => h, fun _ h => .inl h⟩

theorem giveBack_eff (n ms) (hms : ∀ m ∈ ms, m ∈ (P.node n).mutexes) (s : St Val Env) : REff P n s (giveBack n ms s) := by
  induction ms generalizing s with
  | nil => exact REff.refl P n s
  | cons m ms ih =>
    exact ((release_eff P _ n s).trans (addWaiter_eff P (mutex_mem_resources P (hms m (by simp))) _)).trans
      (ih (fun m h => hms m (by simp [h])) _)

theorem tryAcquire_eff (n) (s : St Val Env) : REff P n s (tryAcquire P n s).2 := by
  simp only [tryAcquire]
  have h0 := acquireMutexes_eff P n (P.node n).mutexes (fun _ h => h) s
  by_cases ht : (P.node n).type = .assignment
  · have hv := var_mem_resources P ht
    simp only [ht, if_true]
    split <;> split
    · exact h0.trans (acquire_eff P hv _)
    · exact (h0.trans (acquire_eff P hv _)).trans (giveBack_eff P n _ (fun _ h => h) _)
    · rename_i hh; simp at hh
    · exact (h0.trans (addWaiter_eff P hv _)).trans (giveBack_eff P n _ (fun _ h => h) _)
  · simp only [ht, if_false]
    split
    · exact h0
    · exact h0.trans (giveBack_eff P n _ (fun _ h => h) _)

theorem releaseAll_eff (n rs) (s : St Val Env) : REff P n s (releaseAll n rs s) := by
  unfold releaseAll
  induction rs generalizing s with
  | nil => exact REff.refl P n s
  | cons r rs ih => exact (release_eff P r n s).trans (ih _)

theorem releaseReservations_eff (n) (s : St Val Env) : REff P n s (releaseReservations P n s) := by
  unfold releaseReservations
  generalize resources P n = rs
  induction rs generalizing s with
  | nil => exact REff.refl P n s
  | cons r rs ih => exact (removeWaiter_eff P r n s).trans (ih _)

theorem releaseReservations_waiters (n) (s : St Val Env) (hnd : ∀ r, (s.waiters r).Nodup) (r) (hr : r ∈ resources P n) :
    n ∉ (releaseReservations P n s).waiters r := by
  unfold releaseReservations
  generalize resources P n = rs at hr
  induction rs generalizing s with
  | nil => simp at hr
  | cons r' rs ih =>
    have keep : ∀ (rs : List Res) (s : St Val Env), n ∉ s.waiters r → n ∉ (rs.foldl (fun s r => removeWaiter r n s) s).waiters r := by
      intro rs
      induction rs with
      | nil => intro s h; exact h
      | cons r'' rs ih2 =>
        intro s h
        refine ih2 _ ?_
        simp only [removeWaiter, set_apply]
        split
        · rename_i e; subst e; intro hc; exact h (List.mem_of_mem_erase hc)
        · exact h
    have hnd' := (removeWaiter_eff P r' n s).nodup hnd
    rcases List.mem_cons.1 hr with rfl | hr
    · refine keep rs _ ?_
      simp only [removeWaiter, set_self]
      exact (hnd r).not_mem_erase
    · exact ih _ hnd' hr

theorem releaseReservations_holder (n) (s : St Val Env) : (releaseReservations P n s).holder = s.holder := by
  unfold releaseReservations
  generalize resources P n = rs
  induction rs generalizing s with
  | nil => rfl
  | cons r rs ih => exact ih (removeWaiter r n s)

theorem releaseReservations_q (n) (s : St Val Env) : (releaseReservations P n s).q = s.q := by
  unfold releaseReservations
  generalize resources P n = rs
  induction rs generalizing s with
  | nil => rfl
  | cons r rs ih => exact ih (removeWaiter r n s)

theorem releaseReservations_err (n) (s : St Val Env) : (releaseReservations P n s).err = s.err := by
  unfold releaseReservations
  generalize resources P n = rs
  induction rs generalizing s with
  | nil => rfl
  | cons r rs ih => exact ih (removeWaiter r n s)

theorem acquire_holder (r n) (s : St Val Env) : (acquire r n s).1 = true ↔ s.holder r = none := by
  unfold acquire; split <;> simp_all

theorem acquire_true {r n} {s : St Val Env} (h : (acquire r n s).1 = true) :
    (acquire r n s).2.holder = set s.holder r (some n) := by
  unfold acquire at h ⊢
  split at h
  · simp at h
  · rfl

theorem acquire_false {r n} {s : St Val Env} (h : ¬ (acquire r n s).1 = true) :
    (acquire r n s).2.holder = s.holder ∧ n ∈ (acquire r n s).2.waiters r := by
  unfold acquire at h ⊢
  split
  · exact ⟨rfl, addWaiter_mem r n s⟩
  · rename_i h2; rw [h2] at h; simp at h

/-- Success of the mutex loop: the mutexes were free and distinct, and now belong to `n`; nothing else changes hands. -/
theorem acquireMutexes_true (n ms) (s : St Val Env) (h : (acquireMutexes P n ms s).1 = true) :
    (∀ m ∈ ms, s.holder (.mutex m) = none) ∧ ms.Nodup ∧
    ∀ r, (acquireMutexes P n ms s).2.holder r = if r ∈ ms.map Res.mutex then some n else s.holder r := by
  induction ms generalizing s with
  | nil => simp [acquireMutexes]
  | cons m ms ih =>
    simp only [acquireMutexes] at h ⊢
    split at h
    · rename_i ha
      obtain ⟨h1, h2, h3⟩ := ih _ h
      rw [acquire_true ha] at h1 h3
      have hf := (acquire_holder _ _ _).1 ha
      refine ⟨?_, ?_, ?_⟩
      · intro m' hm'
        rcases List.mem_cons.1 hm' with rfl | hm'
        · exact hf
        · have := h1 m' hm'
          simp only [set_apply] at this
          split at this
          · simp at this
          · exact this
      · refine List.nodup_cons.2 ⟨?_, h2⟩
        intro hm
        have := h1 m hm
        simp at this
      · intro r
        rw [if_pos ha, h3 r]
        simp only [List.map_cons, List.mem_cons, set_apply]
        by_cases e : r = Res.mutex m
        · simp [e]
        · simp [e]
    · simp at h

theorem acquireMutexes_complete (n ms) (s : St Val Env) (hf : ∀ m ∈ ms, s.holder (.mutex m) = none) (hn : ms.Nodup) :
    (acquireMutexes P n ms s).1 = true := by
  induction ms generalizing s with
  | nil => rfl
  | cons m ms ih =>
    simp only [acquireMutexes]
    have ha := (acquire_holder (.mutex m) n s).2 (hf m (by simp))
    rw [if_pos ha]
    obtain ⟨hm, hn⟩ := List.nodup_cons.1 hn
    refine ih _ ?_ hn
    intro m' hm'
    rw [acquire_true ha, set_apply, if_neg]
    · exact hf m' (by simp [hm'])
    · intro e; cases e; exact hm hm'

/-- Failure of the mutex loop: others' holdings are as before. -/
theorem giveBack_spec (n ms) (s : St Val Env) :
    (∀ r, (giveBack n ms s).holder r = if r ∈ ms.map Res.mutex ∧ s.holder r = some n then none else s.holder r) ∧
    (∀ m ∈ ms, n ∈ (giveBack n ms s).waiters (.mutex m)) ∧ (∀ r, n ∈ s.waiters r → n ∈ (giveBack n ms s).waiters r) := by
  induction ms generalizing s with
  | nil => simp [giveBack]
  | cons m ms ih =>
    simp only [giveBack]
    obtain ⟨h1, h2, h3⟩ := ih (addWaiter (.mutex m) n (release (.mutex m) n s))
    have hmem := addWaiter_mem (.mutex m) n (release (.mutex m) n s)
    have hrw : (release (.mutex m) n s).waiters = s.waiters := by
      unfold release; split <;> rfl
    have hold : ∀ r, (release (.mutex m) n s).holder r = if r = Res.mutex m ∧ s.holder r = some n then none else s.holder r := by
      intro r
      unfold release
      by_cases hc : s.holder (.mutex m) = some n
      · rw [if_pos hc]
        simp only [set_apply]
        by_cases e : r = Res.mutex m
        · subst e; simp [hc]
        · simp [e]
      · rw [if_neg hc]
        by_cases e : r = Res.mutex m
        · subst e; simp [hc]
        · simp [e]
    refine ⟨?_, ?_, ?_⟩
    · intro r
      rw [h1 r]
      have : (addWaiter (.mutex m) n (release (.mutex m) n s)).holder = (release (.mutex m) n s).holder := rfl
      rw [this, hold r]
      simp only [List.map_cons, List.mem_cons]
      by_cases e : r = Res.mutex m <;> by_cases e2 : s.holder r = some n <;> by_cases e3 : r ∈ ms.map Res.mutex <;> simp_all
    · intro m' hm'
      rcases List.mem_cons.1 hm' with rfl | hm'
      · exact h3 _ hmem
      · exact h2 m' hm'
    · intro r hr
      refine h3 r ?_
      have hr' : n ∈ (release (.mutex m) n s).waiters r := by rw [hrw]; exact hr
      simp only [addWaiter, set_apply]
      split
      · rename_i e; subst e; rw [if_pos hr']; exact hr'
      · exact hr'

/-- The outcome of `tryResourceAcquisition`. -/
theorem tryAcquire_spec (n) (s : St Val Env) :
    ((tryAcquire P n s).1 = true ↔ (resources P n).Nodup ∧ ∀ r ∈ resources P n, s.holder r = none) ∧
    ((tryAcquire P n s).1 = true → ∀ r, (tryAcquire P n s).2.holder r = if r ∈ resources P n then some n else s.holder r) ∧
    ((tryAcquire P n s).1 = false → (∀ m ∈ (P.node n).mutexes, (tryAcquire P n s).2.holder (.mutex m) ≠ some n) ∧
      (∀ r ∈ resources P n, n ∈ (tryAcquire P n s).2.waiters r) ∧
      (∀ r, (tryAcquire P n s).2.holder r = s.holder r ∨ ((tryAcquire P n s).2.holder r = none ∧ s.holder r = some n ∧ r ∈ resources P n))) := by
  simp only [tryAcquire]
  have hmt := acquireMutexes_true P n (P.node n).mutexes s
  have hmc := acquireMutexes_complete P n (P.node n).mutexes s
  -- in case of failure of the mutex loop, what changed hands
  have hfail : ∀ ms (s : St Val Env), (∀ m ∈ ms, m ∈ (P.node n).mutexes) → ∀ r, (acquireMutexes P n ms s).2.holder r = s.holder r ∨
      ((acquireMutexes P n ms s).2.holder r = some n ∧ s.holder r = none ∧ r ∈ (P.node n).mutexes.map Res.mutex) := by
    intro ms
    induction ms with
    | nil => intro s _ r; exact .inl rfl
    | cons m ms ih =>
      intro s hms r
      simp only [acquireMutexes]
      split
      · rename_i ha
        have hf := (acquire_holder _ _ _).1 ha
        rcases ih (acquire (.mutex m) n s).2 (fun m h => hms m (by simp [h])) r with h | ⟨h, h', h''⟩
        · rw [h, acquire_true ha]
          simp only [set_apply]
          split
          · rename_i e; subst e
            exact .inr ⟨rfl, hf, by simp [hms m]⟩
          · exact .inl rfl
        · rw [acquire_true ha] at h'
          simp only [set_apply] at h'
          split at h'
          · simp at h'
          · exact .inr ⟨h, h', h''⟩
      · rename_i ha
        exact .inl (by rw [(acquire_false ha).1])
  have hfail' := hfail (P.node n).mutexes s (fun _ h => h)
  generalize hr0 : acquireMutexes P n (P.node n).mutexes s = r0 at hmt hmc hfail' ⊢
  have hnm : ((P.node n).mutexes.map Res.mutex).Nodup ↔ (P.node n).mutexes.Nodup := by
    constructor
    · intro h; exact (List.pairwise_map.1 h).imp (fun hab e => hab (by rw [e]))
    · intro h; exact List.pairwise_map.2 (h.imp (fun hab e => hab (by cases e; rfl)))
  -- common treatment of the final clean-up
  have fin : ∀ s1 : St Val Env, (∀ r, s1.holder r = s.holder r ∨ (s1.holder r = some n ∧ s.holder r = none ∧ r ∈ (P.node n).mutexes.map Res.mutex)) →
      ((P.node n).type = .assignment → n ∈ s1.waiters (.var (P.node n).dest)) →
      let s2 := giveBack n (P.node n).mutexes s1
      (∀ m ∈ (P.node n).mutexes, s2.holder (.mutex m) ≠ some n) ∧ (∀ r ∈ resources P n, n ∈ s2.waiters r) ∧
      (∀ r, s2.holder r = s.holder r ∨ (s2.holder r = none ∧ s.holder r = some n ∧ r ∈ resources P n)) := by
    intro s1 hh hv
    obtain ⟨g1, g2, g3⟩ := giveBack_spec n (P.node n).mutexes s1
    refine ⟨?_, ?_, ?_⟩
    · intro m hm
      rw [g1]
      split
      · simp
      · rename_i hc; intro e; exact hc ⟨List.mem_map_of_mem hm, e⟩
    · intro r hr
      rcases List.mem_append.1 hr with hr | hr
      · obtain ⟨m, hm, rfl⟩ := List.mem_map.1 hr
        exact g2 m hm
      · split at hr
        · rename_i ht; simp at hr; subst hr
          exact g3 _ (hv ht)
        · simp at hr
    · intro r
      rw [g1]
      rcases hh r with h | ⟨h, h', h''⟩
      · rw [h]
        split
        · rename_i hc; exact .inr ⟨rfl, hc.2, by simp only [resources, List.mem_append]; exact .inl hc.1⟩
        · exact .inl rfl
      · rw [if_pos ⟨h'', h⟩]; exact .inl h'.symm
  by_cases ht : (P.node n).type = .assignment
  · have hres : resources P n = (P.node n).mutexes.map Res.mutex ++ [.var (P.node n).dest] := by simp [resources, ht]
    have hresnd : (resources P n).Nodup ↔ (P.node n).mutexes.Nodup := by
      rw [hres, List.nodup_append, hnm]
      simp
    simp only [ht, if_true]
    by_cases hb : r0.1 = true
    · simp only [hb, if_true]
      obtain ⟨m1, m2, m3⟩ := hmt hb
      have hv : r0.2.holder (.var (P.node n).dest) = s.holder (.var (P.node n).dest) := by
        rw [m3]; simp
      by_cases ha : (acquire (.var (P.node n).dest) n r0.2).1 = true
      · simp only [ha, if_true]
        have hf := (acquire_holder _ _ _).1 ha
        refine ⟨⟨fun _ => ⟨hresnd.2 m2, ?_⟩, fun _ => trivial⟩, fun _ => ?_, fun h => by simp at h⟩
        · intro r hr
          rw [hres] at hr
          rcases List.mem_append.1 hr with hr | hr
          · obtain ⟨m, hm, rfl⟩ := List.mem_map.1 hr
            exact m1 m hm
          · simp at hr; subst hr; rw [← hv]; exact hf
        · intro r
          rw [acquire_true ha, set_apply, m3, hres]
          by_cases e : r = Res.var (P.node n).dest
          · simp [e]
          · simp [e]
      · simp only [ha]
        have hnf : r0.2.holder (.var (P.node n).dest) ≠ none := fun h => ha ((acquire_holder _ _ _).2 h)
        refine ⟨⟨fun h => by simp at h, ?_⟩, fun h => by simp at h, fun _ => ?_⟩
        · rintro ⟨_, h⟩
          exact absurd (h _ (var_mem_resources P ht)) (by rw [← hv]; exact hnf)
        · refine fin _ ?_ (fun _ => (acquire_false ha).2)
          rw [(acquire_false ha).1]; exact hfail'
    · simp only [hb]
      refine ⟨⟨fun h => by simp at h, ?_⟩, fun h => by simp at h, fun _ => ?_⟩
      · rintro ⟨h1, h2⟩
        exact absurd (hmc (fun m hm => h2 _ (mutex_mem_resources P hm)) (hresnd.1 h1)) hb
      · exact fin _ hfail' (fun _ => addWaiter_mem _ _ _)
  · have hres : resources P n = (P.node n).mutexes.map Res.mutex := by simp [resources, ht]
    simp only [ht, if_false]
    by_cases hb : r0.1 = true
    · simp only [hb, if_true]
      obtain ⟨m1, m2, m3⟩ := hmt hb
      refine ⟨⟨fun _ => ⟨by rw [hres, hnm]; exact m2, ?_⟩, fun _ => trivial⟩, fun _ => ?_, fun h => by simp at h⟩
      · intro r hr
        rw [hres] at hr
        obtain ⟨m, hm, rfl⟩ := List.mem_map.1 hr
        exact m1 m hm
      · intro r; rw [m3, hres]
    · simp only [hb]
      refine ⟨⟨fun h => by simp at h, ?_⟩, fun h => by simp at h, fun _ => fin _ hfail' (fun h => absurd h ht)⟩
      rintro ⟨h1, h2⟩
      exact absurd (hmc (fun m hm => h2 _ (mutex_mem_resources P hm)) (hnm.1 (hres ▸ h1))) hb

end Verif.Exec
