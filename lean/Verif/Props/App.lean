import Verif.App.Model

/-!
C56–C59: the threads of an executive application.
-/
namespace Verif.App

@[simp] theorem upd_same {β : Type} (f : Nat → β) (t : Nat) (x : β) : upd f t x t = x := by simp [upd]

theorem upd_other {β : Type} (f : Nat → β) {t i : Nat} (x : β) (h : i ≠ t) : upd f t x i = f i := by simp [upd, h]

/-- A client owes the executive a notification. -/
def Owed (s : St) : Prop := ∃ t, s.owes t = true

/-- The worker will look again: the semaphore is up, or a client is about to raise it. -/
def Pend (s : St) : Prop := 0 < s.sem ∨ Owed s

theorem pend_notify (s : St) (t : Nat) : 0 < (s.notify t).sem := Nat.succ_pos _

/-! ## What clients do -/

structure CStep (s s' : St) : Prop where
  w : s'.w = s.w
  needs : s'.needs = s.needs
  seen : s'.seen = s.seen
  ran : s'.ran = s.ran
  plans : s'.plans = s.plans
  lastMark : s'.lastMark = s.lastMark
  oldMark : s'.oldMark = s.oldMark
  pend : Pend s → Pend s'
  fifo : s.seen ++ s.queue = s.put → s'.seen ++ s'.queue = s'.put
  queue : s'.queue = s.queue ∨ Pend s'
  put : s'.put = s.put ∨ Pend s'
  grow : ∃ l, s'.put = s.put ++ l
  susp : s.suspended = true → s'.suspended = true ∨ Pend s'
  stop : s'.stop = true → s.stop = true ∨ Pend s'

theorem owed_upd (s : St) (t : Nat) : Owed { s with owes := upd s.owes t true } := ⟨t, by simp⟩

theorem cstep_frame {s s' : St} (hw : s'.w = s.w) (hn : s'.needs = s.needs) (hs : s'.seen = s.seen) (hr : s'.ran = s.ran) (hp : s'.plans = s.plans)
    (hl : s'.lastMark = s.lastMark) (ho : s'.oldMark = s.oldMark) (hsem : s'.sem = s.sem) (how : s'.owes = s.owes) (hq : s'.queue = s.queue) (hpt : s'.put = s.put)
    (hsu : s.suspended = true → s'.suspended = true) (hst : s'.stop = s.stop) : CStep s s' where
  w := hw
  needs := hn
  seen := hs
  ran := hr
  plans := hp
  lastMark := hl
  oldMark := ho
  pend := by unfold Pend Owed; rw [hsem, how]; exact id
  fifo := by rw [hs, hq, hpt]; exact id
  queue := .inl hq
  put := .inl hpt
  grow := ⟨[], by rw [hpt]; simp⟩
  susp := fun h => .inl (hsu h)
  stop := fun h => .inl (by rw [← hst]; exact h)

theorem cstep_owe {s s' : St} (hw : s'.w = s.w) (hn : s'.needs = s.needs) (hs : s'.seen = s.seen) (hr : s'.ran = s.ran) (hp : s'.plans = s.plans)
    (hl : s'.lastMark = s.lastMark) (ho : s'.oldMark = s.oldMark) (how : Pend s') (hg : ∃ l, s'.put = s.put ++ l)
    (hf : s.seen ++ s.queue = s.put → s'.seen ++ s'.queue = s'.put) : CStep s s' where
  w := hw
  needs := hn
  seen := hs
  ran := hr
  plans := hp
  lastMark := hl
  oldMark := ho
  pend := fun _ => how
  fifo := hf
  queue := .inr how
  put := .inr how
  grow := hg
  susp := fun _ => .inr how
  stop := fun _ => .inr how

theorem client_step {s s' : St} {t : Nat} {a : Call} (h : s.client t a = some s') : CStep s s' := by
  unfold St.client at h
  split at h
  · injection h with h; subst h
    exact cstep_owe rfl rfl rfl rfl rfl rfl rfl (.inr ⟨t, by simp [St.enqueue]⟩) ⟨_, rfl⟩ (fun h => by simp [St.enqueue, ← h])
  · injection h with h; subst h
    exact cstep_owe rfl rfl rfl rfl rfl rfl rfl (.inr ⟨t, by simp [St.enqueue]⟩) ⟨_, rfl⟩ (fun h => by simp [St.enqueue, ← h])
  · injection h with h; subst h
    exact cstep_frame rfl rfl rfl rfl rfl rfl rfl rfl rfl rfl rfl id rfl
  · injection h with h; subst h
    exact cstep_owe rfl rfl rfl rfl rfl rfl rfl (.inl (pend_notify s t)) ⟨[], by simp [St.notify]⟩ id
  · injection h with h; subst h
    exact cstep_frame rfl rfl rfl rfl rfl rfl rfl rfl rfl rfl rfl (fun _ => rfl) rfl
  · injection h with h; subst h
    exact cstep_owe rfl rfl rfl rfl rfl rfl rfl (.inr ⟨t, by simp⟩) ⟨[], by simp⟩ id
  · injection h with h; subst h
    exact cstep_owe rfl rfl rfl rfl rfl rfl rfl (.inr ⟨t, by simp⟩) ⟨[], by simp⟩ id
  · injection h with h; subst h
    exact cstep_frame rfl rfl rfl rfl rfl rfl rfl rfl rfl rfl rfl id rfl
  · injection h with h; subst h
    exact cstep_owe rfl rfl rfl rfl rfl rfl rfl (.inr ⟨t, by simp [St.enqueue]⟩) ⟨_, rfl⟩ (fun h => by simp [St.enqueue, ← h])
  · injection h with h; subst h
    exact cstep_owe rfl rfl rfl rfl rfl rfl rfl (.inl (pend_notify s t)) ⟨[], by simp [St.notify]⟩ id
  · split at h
    · injection h with h; subst h
      exact cstep_frame rfl rfl rfl rfl rfl rfl rfl rfl rfl rfl rfl id rfl
    · simp at h
  · injection h with h; subst h
    exact cstep_frame rfl rfl rfl rfl rfl rfl rfl rfl rfl rfl rfl id rfl
  · injection h with h; subst h
    exact cstep_frame rfl rfl rfl rfl rfl rfl rfl rfl rfl rfl rfl id rfl
  · split at h
    · injection h with h; subst h
      exact cstep_frame rfl rfl rfl rfl rfl rfl rfl rfl rfl rfl rfl id rfl
    · simp at h
  · simp at h

/-! ## No wake-up is lost -/

/-- In the worker's first cycle. -/
def WPc.first : WPc → Bool
  | .start .step | .scan0 .step | .exec .step | .tidy .step | .report .step _ | .marks .step => true
  | _ => false

/-- After the last look at the queue. -/
def WPc.late : WPc → Bool
  | .tidy .run | .report .run _ | .marks .run => true
  | _ => false

structure WInv (s : St) : Prop where
  fifo : s.seen ++ s.queue = s.put
  needs : s.needs = true → s.put ≠ []
  first : s.w.first = true → s.put ≠ [] → Pend s
  scan : ∀ b, s.w = .scan b → s.needs = false
  late : s.w.late = true → s.needs = false ∧ (s.queue ≠ [] → Pend s)
  wait : s.w = .wait → (s.needs = true ∨ s.queue ≠ []) → Pend s ∨ s.suspended = true
  stop : s.stop = true → Pend s ∨ s.w = .woke ∨ s.w = .stopCheck ∨ s.w = .ended

theorem winv_client {s s' : St} (i : WInv s) (h : CStep s s') : WInv s' where
  fifo := h.fifo i.fifo
  needs := by
    intro hn hp
    obtain ⟨l, hl⟩ := h.grow
    rw [hl] at hp
    exact i.needs (by rw [← h.needs]; exact hn) (List.append_eq_nil_iff.1 hp).1
  first := by
    intro hw hp
    rcases h.put with e | e
    · exact h.pend (i.first (by rw [← h.w]; exact hw) (by rw [← e]; exact hp))
    · exact e
  scan := fun b hb => by rw [h.needs]; exact i.scan b (by rw [← h.w]; exact hb)
  late := by
    intro hw
    obtain ⟨h1, h2⟩ := i.late (by rw [← h.w]; exact hw)
    refine ⟨by rw [h.needs]; exact h1, fun hq => ?_⟩
    rcases h.queue with e | e
    · exact h.pend (h2 (by rw [← e]; exact hq))
    · exact e
  wait := by
    intro hw hq
    rcases h.queue with e | e
    · rcases i.wait (by rw [← h.w]; exact hw) (by rw [← e, ← h.needs]; exact hq) with p | p
      · exact .inl (h.pend p)
      · exact (h.susp p).symm
    · exact .inl e
  stop := by
    intro hs
    rcases h.stop hs with e | e
    · rw [h.w]
      exact (i.stop e).imp_left h.pend
    · exact .inl e

theorem process_fields (s : St) (e : Entry) : (s.process e).1.queue = s.queue ∧ (s.process e).1.put = s.put ∧ (s.process e).1.seen = s.seen ∧
    (s.process e).1.ran = s.ran ∧ (s.process e).1.needs = s.needs ∧ (s.process e).1.sem = s.sem ∧ (s.process e).1.markSem = s.markSem ∧
    (s.process e).1.finSem = s.finSem ∧ (s.process e).1.markCount = s.markCount ∧ (s.process e).1.oldMark = s.oldMark ∧ (s.process e).1.stop = s.stop ∧
    (s.process e).1.suspended = s.suspended ∧ (s.process e).1.planLoaded = s.planLoaded ∧ (s.process e).1.w = s.w ∧ (s.process e).1.c = s.c ∧
    (s.process e).1.owes = s.owes := by
  cases e <;> simp [St.process]

theorem winv_worker {s s' : St} {ch : Choice} (i : WInv s) (h : s.worker ch = some s') : WInv s' := by
  unfold St.worker at h
  split at h
  · next k hw =>
    injection h with h; subst h
    refine ⟨i.fifo, i.needs, ?_, by simp, by simp [WPc.late], by simp, ?_⟩
    · cases k
      · exact fun _ => i.first (by rw [hw]; rfl)
      · simp [WPc.first]
    · intro hs; have := i.stop hs; rw [hw] at this; simpa [Pend, Owed] using this
  · next k hw =>
    split at h
    · next e q hq =>
      injection h with h; subst h
      obtain ⟨p1, p2, p3, p4, p5, p6, p7, p8, p9, p10, p11, p12, p13, p14, p15, p16⟩ := process_fields s e
      have hP : Pend (s.pop e q).1 ↔ Pend s := by simp only [Pend, Owed, St.pop, p6, p16]
      have hW : (s.pop e q).1.w = s.w := by simp only [St.pop, p14]
      refine ⟨?_, ?_, ?_, ?_, ?_, ?_, ?_⟩
      · simp only [St.pop, p2]; rw [← i.fifo, hq]; simp
      · simp only [St.pop, p5, p2]; exact i.needs
      · rw [hP, hW]; simp only [St.pop, p2]; exact i.first
      · rw [hW, hw]; simp
      · rw [hW, hw]; simp [WPc.late]
      · rw [hW, hw]; simp
      · rw [hP, hW]; simp only [St.pop, p11]; exact i.stop
    · injection h with h; subst h
      refine ⟨i.fifo, i.needs, ?_, by simp, by simp [WPc.late], by simp, ?_⟩
      · cases k
        · exact fun _ => i.first (by rw [hw]; rfl)
        · simp [WPc.first]
      · intro hs; have := i.stop hs; rw [hw] at this; simpa [Pend, Owed] using this
  · next k hw =>
    injection h with h; subst h
    have hst : s.stop = true → Pend s := fun hs => by have := i.stop hs; rw [hw] at this; simpa using this
    have hn : (s.execStep ch).needs = true → s.put ≠ [] := by
      intro hn hp
      have hf := i.fifo
      rw [hp] at hf
      have h0 : s.seen = [] := (List.append_eq_nil_iff.1 hf).1
      simp [St.execStep, h0] at hn
    cases k
    · refine ⟨i.fifo, hn, fun _ => i.first (by rw [hw]; rfl), by simp, by simp [WPc.late], by simp, fun hs => .inl (hst hs)⟩
    · refine ⟨i.fifo, hn, by simp [WPc.first], by simp, by simp [WPc.late], by simp, fun hs => .inl (hst hs)⟩
  · next hw =>
    injection h with h; subst h
    have hst : s.stop = true → Pend s := fun hs => by have := i.stop hs; rw [hw] at this; simpa using this
    refine ⟨i.fifo, i.needs, ?_, ?_, ?_, ?_, fun hs => .inl (hst hs)⟩
    · split <;> simp [WPc.first]
    · split
      · simp
      · next hn => exact fun _ _ => by simpa using hn
    · split <;> simp [WPc.late]
    · split <;> simp
  · next b hw =>
    have hst : s.stop = true → Pend s := fun hs => by have := i.stop hs; rw [hw] at this; simpa using this
    have hn := i.scan b hw
    split at h
    · next e q hq =>
      injection h with h; subst h
      obtain ⟨p1, p2, p3, p4, p5, p6, p7, p8, p9, p10, p11, p12, p13, p14, p15, p16⟩ := process_fields s e
      refine ⟨?_, ?_, by simp [WPc.first], ?_, by simp [WPc.late], by simp, ?_⟩
      · simp only [St.pop, p2]; rw [← i.fifo, hq]; simp
      · simp only [St.pop, p5, p2]; exact i.needs
      · intro _ _; simp only [St.pop, p5]; exact hn
      · intro hs
        simp only [St.pop, p11] at hs
        have := hst hs
        refine .inl ?_
        simpa only [Pend, Owed, St.pop, p6, p16] using this
    · next hq =>
      injection h with h; subst h
      cases b
      · exact ⟨i.fifo, i.needs, by simp [WPc.first], by simp, fun _ => ⟨hn, fun h => absurd hq h⟩, by simp, fun hs => .inl (hst hs)⟩
      · exact ⟨i.fifo, i.needs, by simp [WPc.first], by simp, by simp [WPc.late], by simp, fun hs => .inl (hst hs)⟩
  · next k hw =>
    injection h with h; subst h
    have hst : s.stop = true → Pend s := fun hs => by have := i.stop hs; rw [hw] at this; simpa using this
    refine ⟨i.fifo, i.needs, ?_, by simp, ?_, by simp, fun hs => .inl (hst hs)⟩
    · cases k
      · exact fun _ => i.first (by rw [hw]; rfl)
      · simp [WPc.first]
    · cases k
      · simp [WPc.late]
      · exact fun _ => i.late (by rw [hw]; rfl)
  · next k fin hw =>
    injection h with h; subst h
    have hst : s.stop = true → Pend s := fun hs => by have := i.stop hs; rw [hw] at this; simpa using this
    refine ⟨i.fifo, i.needs, ?_, by simp, ?_, by simp, fun hs => .inl (hst hs)⟩
    · cases k
      · exact fun _ => i.first (by rw [hw]; rfl)
      · simp [WPc.first]
    · cases k
      · simp [WPc.late]
      · exact fun _ => i.late (by rw [hw]; rfl)
  · next k hw =>
    injection h with h; subst h
    have hst : s.stop = true → Pend s := fun hs => by have := i.stop hs; rw [hw] at this; simpa using this
    refine ⟨i.fifo, i.needs, by simp [WPc.first], by simp, by simp [WPc.late], ?_, fun hs => .inl (hst hs)⟩
    intro _ hq
    dsimp only at hq
    refine .inl ?_
    cases k
    · refine i.first (by rw [hw]; rfl) ?_
      rcases hq with hq | hq
      · exact i.needs hq
      · rw [← i.fifo]; intro h0; exact hq (List.append_eq_nil_iff.1 h0).2
    · obtain ⟨h1, h2⟩ := i.late (by rw [hw]; rfl)
      rcases hq with hq | hq
      · rw [h1] at hq; simp at hq
      · exact h2 hq
  · next hw =>
    split at h
    · injection h with h; subst h
      exact ⟨i.fifo, i.needs, by simp [WPc.first], by simp, by simp [WPc.late], by simp, fun _ => .inr (.inl rfl)⟩
    · simp at h
  · next hw =>
    injection h with h; subst h
    split
    · next hc =>
      simp at hc
      exact ⟨i.fifo, i.needs, by simp [WPc.first], by simp, by simp [WPc.late], fun _ _ => .inr hc.2, fun hs => by simp [hc.1] at hs⟩
    · exact ⟨i.fifo, i.needs, by simp [WPc.first], by simp, by simp [WPc.late], by simp, fun _ => .inr (.inr (.inl rfl))⟩
  · next hw =>
    split at h
    · injection h with h; subst h
      exact ⟨i.fifo, i.needs, by simp [WPc.first], by simp, by simp [WPc.late], by simp, by simp⟩
    · next hs =>
      injection h with h; subst h
      exact ⟨i.fifo, i.needs, by simp [WPc.first], by simp, by simp [WPc.late], by simp, fun h => absurd h hs⟩
  · simp at h

theorem Reach.winv {P : St → Act → Prop} {s : St} (h : Reach P s) : WInv s := by
  induction h with
  | init => exact ⟨rfl, by simp, by simp, by simp, by simp [WPc.late], by simp, by simp⟩
  | @next s s' a _ _ hn ih =>
    cases a with
    | worker ch => exact winv_worker ih hn
    | client t a => exact winv_client ih (client_step hn)

/-- The worker is blocked on its semaphore. -/
def Asleep (s : St) : Prop := s.w = .wait ∧ s.sem = 0

/-- **C56.** Whatever the schedule: if the worker is blocked, the application is not suspended, and every client that has
queued something has since called `notifyExec`, then every entry ever queued has been processed, in the order queued and once each, the executive
needs no further step, and no request to stop is outstanding. -/
theorem c56_no_lost_wakeup (s : St) (h : Reach (fun _ _ => True) s) (hb : Asleep s) (hs : s.suspended = false) (ho : ∀ t, s.owes t = false) :
    s.seen = s.put ∧ s.queue = [] ∧ s.needs = false ∧ s.stop = false := by
  have i := h.winv
  have hp : ¬ Pend s := by
    rintro (h | ⟨t, h⟩)
    · have := hb.2; omega
    · rw [ho t] at h; simp at h
  have hq : ¬ (s.needs = true ∨ s.queue ≠ []) := by
    intro hq
    rcases i.wait hb.1 hq with h | h
    · exact hp h
    · rw [hs] at h; simp at h
  rw [not_or] at hq
  have hqq : s.queue = [] := Classical.byContradiction hq.2
  refine ⟨by have := i.fifo; rw [hqq, List.append_nil] at this; exact this, hqq, by simpa using hq.1, ?_⟩
  cases h : s.stop with
  | false => rfl
  | true =>
    rcases i.stop h with h | h | h | h
    · exact absurd h hp
    all_goals (rw [hb.1] at h; simp at h)

/-- **C56.** At any time what has been processed is the beginning of what has been queued: in order, nothing twice, nothing lost. -/
theorem c56_in_order (s : St) (h : Reach (fun _ _ => True) s) : s.put = s.seen ++ s.queue := h.winv.fifo.symm

/-! ## Progress -/

/-- Where in its cycle the worker is: it only goes down. -/
def WPc.phase (needs : Bool) : WPc → Nat
  | .wait => 0
  | .marks _ => 1
  | .report _ _ => 2
  | .tidy _ => 3
  | .scan b => if b then 7 else 4
  | .more => if needs then 7 else 5
  | .exec _ => 6
  | .scan0 _ => 8
  | .start _ => 9
  | .stopCheck => 10
  | .woke => 11
  | .ended => 0

def St.rank (s : St) : Nat := 12 * s.sem + 4 * s.queue.length + s.w.phase s.needs

/-- Nothing but the worker's own progress is at stake. -/
structure Calm (s : St) : Prop where
  stop : s.stop = false
  susp : s.suspended = false
  ended : s.w ≠ .ended
  owes : ∀ t, s.owes t = false

theorem worker_rank {s : St} (hc : Calm s) (ch : Choice) (hch : ch.needs = false) (ha : ¬ Asleep s) :
    ∃ s', s.worker ch = some s' ∧ Calm s' ∧ s'.rank < s.rank ∧ s'.put = s.put := by
  unfold Asleep at ha
  obtain ⟨h1, h2, h3, h4⟩ := hc
  unfold St.worker
  split
  · next k hw => exact ⟨_, rfl, ⟨h1, h2, by simp, h4⟩, by simp [St.rank, hw, WPc.phase], rfl⟩
  · next k hw =>
    split
    · next e q hq =>
      obtain ⟨p1, p2, p3, p4, p5, p6, p7, p8, p9, p10, p11, p12, p13, p14, p15, p16⟩ := process_fields s e
      refine ⟨_, rfl, ⟨by simp [St.pop, p11, h1], by simp [St.pop, p12, h2], by simp [St.pop, p14, hw], by simp [St.pop, p16, h4]⟩, ?_,
        by simp [St.pop, p2]⟩
      simp [St.rank, St.pop, hw, WPc.phase, p6, p5, p14, hq]
    · next hq => exact ⟨_, rfl, ⟨h1, h2, by simp, h4⟩, by simp [St.rank, hw, WPc.phase], rfl⟩
  · next k hw =>
    refine ⟨_, rfl, ⟨h1, h2, ?_, h4⟩, ?_, rfl⟩
    · cases k <;> simp
    · cases k <;> simp [St.rank, hw, WPc.phase, St.execStep, hch]
  · next hw =>
    refine ⟨_, rfl, ⟨h1, h2, ?_, h4⟩, ?_, rfl⟩
    · dsimp only; split <;> simp
    · cases hn : s.needs <;> simp [St.rank, hw, WPc.phase, hn]
  · next b hw =>
    split
    · next e q hq =>
      obtain ⟨p1, p2, p3, p4, p5, p6, p7, p8, p9, p10, p11, p12, p13, p14, p15, p16⟩ := process_fields s e
      refine ⟨_, rfl, ⟨by simp [St.pop, p11, h1], by simp [St.pop, p12, h2], by simp, by simp [St.pop, p16, h4]⟩, ?_,
        by simp [St.pop, p2]⟩
      simp only [St.rank, St.pop, hw, WPc.phase, p6, hq, List.length_cons]
      split <;> split <;> simp_all <;> omega
    · next hq =>
      refine ⟨_, rfl, ⟨h1, h2, ?_, h4⟩, ?_, rfl⟩
      · dsimp only; split <;> simp
      · cases b <;> simp [St.rank, hw, WPc.phase]
  · next k hw => exact ⟨_, rfl, ⟨h1, h2, by simp, h4⟩, by simp [St.rank, hw, WPc.phase], rfl⟩
  · next k hw => exact ⟨_, rfl, ⟨h1, h2, by simp, h4⟩, by simp [St.rank, hw, WPc.phase], rfl⟩
  · next k hw => exact ⟨_, rfl, ⟨h1, h2, by simp, h4⟩, by simp [St.rank, hw, WPc.phase], rfl⟩
  · next hw =>
    have h0 : s.sem ≠ 0 := fun h => ha ⟨hw, h⟩
    rw [if_pos (by omega)]
    refine ⟨_, rfl, ⟨h1, h2, by simp, h4⟩, ?_, rfl⟩
    simp only [St.rank, hw, WPc.phase]; omega
  · next hw =>
    refine ⟨_, rfl, ⟨h1, h2, by simp [h1, h2], h4⟩, ?_, rfl⟩
    simp [St.rank, hw, WPc.phase, h1, h2]
  · next hw =>
    rw [if_neg (by rw [h1]; simp)]
    exact ⟨_, rfl, ⟨h1, h2, by simp, h4⟩, by simp [St.rank, hw, WPc.phase], rfl⟩
  · next hw => exact absurd hw h3

/-- **C56.** Everything queued gets processed: from any reachable state in which the application runs, is not suspended, and all clients have
called `notifyExec`, if the executive's steps come to rest then the worker by itself, after finitely many steps, has processed
everything queued and blocks. -/
theorem c56_drains (s : St) (h : Reach (fun _ _ => True) s) (hw : s.w ≠ .ended) (hst : s.stop = false) (hs : s.suspended = false)
    (ho : ∀ t, s.owes t = false) (ch : Nat → Choice) (hch : ∀ k, (ch k).needs = false) :
    ∃ n s', s.run ((List.range n).map fun k => Act.worker (ch k)) = some s' ∧ Asleep s' ∧ s'.seen = s.put ∧ s'.needs = false := by
  have key : ∀ m (s : St), s.rank ≤ m → Reach (fun _ _ => True) s → Calm s → ∀ ch : Nat → Choice, (∀ k, (ch k).needs = false) →
      ∃ n s', s.run ((List.range n).map fun k => Act.worker (ch k)) = some s' ∧ Asleep s' ∧ s'.seen = s.put ∧ s'.needs = false := by
    intro m
    induction m with
    | zero =>
      intro s hm hr hc ch hch
      by_cases ha : Asleep s
      · have := c56_no_lost_wakeup s hr ha hc.susp hc.owes
        exact ⟨0, s, rfl, ha, this.1, this.2.2.1⟩
      · obtain ⟨s', _, _, hlt, _⟩ := worker_rank hc (ch 0) (hch 0) ha
        omega
    | succ m ih =>
      intro s hm hr hc ch hch
      by_cases ha : Asleep s
      · have := c56_no_lost_wakeup s hr ha hc.susp hc.owes
        exact ⟨0, s, rfl, ha, this.1, this.2.2.1⟩
      · obtain ⟨s', hn, hc', hlt, hput⟩ := worker_rank hc (ch 0) (hch 0) ha
        obtain ⟨n, t, hrun, hA, hseen, hnd⟩ := ih s' (by omega) (.next (a := .worker (ch 0)) hr trivial hn) hc' (fun k => ch (k + 1)) (fun k => hch _)
        refine ⟨n + 1, t, ?_, hA, by rw [hseen, hput], hnd⟩
        rw [List.range_succ_eq_map]
        simp only [List.map_cons, List.map_map, St.run, St.next, hn]
        exact hrun
  exact key s.rank s (Nat.le_refl _) h ⟨hst, hs, hw, ho⟩ ch hch

/-! ## Completion -/

/-- The call of `notifyAndWaitForCompletion` a client is in: its number, and what had been queued when it began. -/
def CPc.tag : CPc → Option (Nat × List Entry)
  | .idle | .adding => none
  | .marked n b | .queued n b | .waiting n b | .passing n b | .checking n b => some (n, b)

/-- A client that has taken the semaphore of completions. -/
def CPc.passed : CPc → Bool
  | .passing _ _ | .checking _ _ => true
  | _ => false

structure MInv (s : St) : Prop where
  marks : ∀ m, .mark m ∈ s.put → 1 ≤ m ∧ m ≤ s.markCount
  tag : ∀ t n b, (s.c t).tag = some (n, b) → 1 ≤ n ∧ n ≤ s.markCount ∧ b <+: s.put
  place : ∀ t n b, (s.c t).tag = some (n, b) → ∀ pre m post, s.put = pre ++ .mark m :: post → n ≤ m → b <+: pre
  last : s.lastMark = 0 ∨ .mark s.lastMark ∈ s.seen

theorem split_snoc {put pre post : List Entry} {x e : Entry} (h : put ++ [x] = pre ++ e :: post) :
    (x = e ∧ put = pre) ∨ ∃ post', put = pre ++ e :: post' := by
  rcases List.eq_nil_or_concat post with rfl | ⟨post', y, rfl⟩
  · have := List.append_inj_right' h (by simp)
    have h2 := List.append_inj_left' h (by simp)
    injection this with this
    exact .inl ⟨this, h2⟩
  · rw [List.concat_eq_append, show pre ++ e :: (post' ++ [y]) = (pre ++ e :: post') ++ [y] by simp] at h
    exact .inr ⟨post', List.append_inj_left' h (by simp)⟩

/-- Numbers and queued entries stay as they are, and no call begins. -/
theorem minv_keep {s s' : St} (i : MInv s) (hp : s'.put = s.put) (hm : s'.markCount = s.markCount)
    (ht : ∀ t n b, (s'.c t).tag = some (n, b) → (s.c t).tag = some (n, b)) (hl : s'.lastMark = 0 ∨ .mark s'.lastMark ∈ s'.seen) : MInv s' where
  marks := by rw [hp, hm]; exact i.marks
  tag := fun t n b h => by rw [hp, hm]; exact i.tag t n b (ht t n b h)
  place := fun t n b h => by rw [hp]; exact i.place t n b (ht t n b h)
  last := hl

theorem minv_enqueue {s s' : St} {e : Entry} (i : MInv s) (hp : s'.put = s.put ++ [e]) (hm : s'.markCount = s.markCount)
    (he : ∀ m, e = .mark m → 1 ≤ m ∧ m ≤ s.markCount)
    (ht : ∀ t n b, (s'.c t).tag = some (n, b) → (s.c t).tag = some (n, b)) (hl : s'.lastMark = s.lastMark) (hs : s'.seen = s.seen) : MInv s' where
  marks := fun m h => by
    rw [hm]
    rw [hp, List.mem_append] at h
    rcases h with h | h
    · exact i.marks m h
    · rw [List.mem_singleton] at h; exact he m h.symm
  tag := fun t n b h => by
    rw [hm, hp]
    obtain ⟨a1, a2, a3⟩ := i.tag t n b (ht t n b h)
    exact ⟨a1, a2, a3.trans (List.prefix_append _ _)⟩
  place := fun t n b h pre m post hpp hnm => by
    rw [hp] at hpp
    rcases split_snoc hpp with ⟨_, h2⟩ | ⟨post', h2⟩
    · rw [← h2]; exact (i.tag t n b (ht t n b h)).2.2
    · exact i.place t n b (ht t n b h) pre m post' h2 hnm
  last := by rw [hl, hs]; exact i.last

theorem tag_upd {s : St} {t : Nat} {x : CPc} (hx : ∀ n b, x.tag = some (n, b) → (s.c t).tag = some (n, b)) :
    ∀ u n b, ((upd s.c t x) u).tag = some (n, b) → (s.c u).tag = some (n, b) := by
  intro u n b h
  by_cases hu : u = t
  · subst hu; rw [upd_same] at h; exact hx n b h
  · rw [upd_other _ _ hu] at h; exact h

theorem minv_client {s s' : St} {t : Nat} {a : Call} (i : MInv s) (h : s.client t a = some s') : MInv s' := by
  unfold St.client at h
  split at h
  · injection h with h; subst h
    exact minv_enqueue i rfl rfl (by simp) (fun _ _ _ h => h) rfl rfl
  · injection h with h; subst h
    exact minv_enqueue i rfl rfl (by simp) (tag_upd (by simp [CPc.tag])) rfl rfl
  · injection h with h; subst h
    exact minv_keep i rfl rfl (tag_upd (by simp [CPc.tag])) i.last
  · injection h with h; subst h
    exact minv_keep i rfl rfl (fun _ _ _ h => h) i.last
  · injection h with h; subst h
    exact minv_keep i rfl rfl (fun _ _ _ h => h) i.last
  · injection h with h; subst h
    exact minv_keep i rfl rfl (fun _ _ _ h => h) i.last
  · injection h with h; subst h
    exact minv_keep i rfl rfl (fun _ _ _ h => h) i.last
  · injection h with h; subst h
    refine ⟨fun m hm => ?_, fun u n b hu => ?_, fun u n b hu => ?_, i.last⟩
    · have := i.marks m hm; dsimp only; omega
    · dsimp only at hu ⊢
      by_cases e : u = t
      · subst e
        simp only [upd_same, CPc.tag, Option.some.injEq, Prod.mk.injEq] at hu
        obtain ⟨rfl, rfl⟩ := hu
        exact ⟨by omega, Nat.le_refl _, List.prefix_refl _⟩
      · rw [upd_other _ _ e] at hu
        have := i.tag u n b hu
        exact ⟨this.1, by omega, this.2.2⟩
    · dsimp only at hu ⊢
      by_cases e : u = t
      · subst e
        simp only [upd_same, CPc.tag, Option.some.injEq, Prod.mk.injEq] at hu
        obtain ⟨rfl, rfl⟩ := hu
        intro pre m post hp hm
        have := i.marks m (by rw [hp]; simp)
        omega
      · rw [upd_other _ _ e] at hu
        exact i.place u n b hu
  · next n b hc =>
    injection h with h; subst h
    refine minv_enqueue i rfl rfl ?_ (tag_upd (by simp [CPc.tag, hc])) rfl rfl
    intro m hm
    injection hm with hm
    subst hm
    have := i.tag t n b (by simp [CPc.tag, hc])
    exact ⟨this.1, this.2.1⟩
  · next n b hc =>
    injection h with h; subst h
    exact minv_keep i rfl rfl (tag_upd (by simp [CPc.tag, hc])) i.last
  · next n b hc =>
    split at h
    · injection h with h; subst h
      exact minv_keep i rfl rfl (tag_upd (by simp [CPc.tag, hc])) i.last
    · simp at h
  · next n b hc =>
    injection h with h; subst h
    exact minv_keep i rfl rfl (tag_upd (by simp [CPc.tag, hc])) i.last
  · next n b hc =>
    injection h with h; subst h
    exact minv_keep i rfl rfl (tag_upd (by split <;> simp [CPc.tag, hc])) i.last
  · split at h
    · injection h with h; subst h
      exact minv_keep i rfl rfl (fun _ _ _ h => h) i.last
    · simp at h
  · simp at h

/-- What the worker leaves alone. -/
theorem worker_frame {s s' : St} {ch : Choice} (h : s.worker ch = some s') :
    s'.put = s.put ∧ s'.markCount = s.markCount ∧ s'.c = s.c ∧ s'.owes = s.owes ∧ s'.planLoaded = s.planLoaded ∧ s'.suspended = s.suspended := by
  unfold St.worker at h
  split at h
  · injection h with h; subst h; exact ⟨rfl, rfl, rfl, rfl, rfl, rfl⟩
  · split at h
    · next e q _ =>
      injection h with h; subst h
      obtain ⟨p1, p2, p3, p4, p5, p6, p7, p8, p9, p10, p11, p12, p13, p14, p15, p16⟩ := process_fields s e
      exact ⟨p2, p9, p15, p16, p13, p12⟩
    · injection h with h; subst h; exact ⟨rfl, rfl, rfl, rfl, rfl, rfl⟩
  · injection h with h; subst h; exact ⟨rfl, rfl, rfl, rfl, rfl, rfl⟩
  · injection h with h; subst h; exact ⟨rfl, rfl, rfl, rfl, rfl, rfl⟩
  · split at h
    · next e q _ =>
      injection h with h; subst h
      obtain ⟨p1, p2, p3, p4, p5, p6, p7, p8, p9, p10, p11, p12, p13, p14, p15, p16⟩ := process_fields s e
      exact ⟨p2, p9, p15, p16, p13, p12⟩
    · injection h with h; subst h; exact ⟨rfl, rfl, rfl, rfl, rfl, rfl⟩
  · injection h with h; subst h; exact ⟨rfl, rfl, rfl, rfl, rfl, rfl⟩
  · injection h with h; subst h; exact ⟨rfl, rfl, rfl, rfl, rfl, rfl⟩
  · injection h with h; subst h; exact ⟨rfl, rfl, rfl, rfl, rfl, rfl⟩
  · split at h
    · injection h with h; subst h; exact ⟨rfl, rfl, rfl, rfl, rfl, rfl⟩
    · simp at h
  · injection h with h; subst h; exact ⟨rfl, rfl, rfl, rfl, rfl, rfl⟩
  · split at h
    · injection h with h; subst h; exact ⟨rfl, rfl, rfl, rfl, rfl, rfl⟩
    · injection h with h; subst h; exact ⟨rfl, rfl, rfl, rfl, rfl, rfl⟩
  · simp at h

theorem pop_last {s : St} {e : Entry} {q : List Entry} (h : s.lastMark = 0 ∨ .mark s.lastMark ∈ s.seen) :
    (s.pop e q).1.lastMark = 0 ∨ .mark (s.pop e q).1.lastMark ∈ (s.pop e q).1.seen := by
  cases e with
  | mark n => right; simp [St.pop, St.process]
  | event id => simp only [St.pop, St.process]; rcases h with h | h <;> simp [h]
  | plan p => simp only [St.pop, St.process]; rcases h with h | h <;> simp [h]

theorem worker_last {s s' : St} {ch : Choice} (h : s.worker ch = some s') (hl : s.lastMark = 0 ∨ .mark s.lastMark ∈ s.seen) :
    s'.lastMark = 0 ∨ .mark s'.lastMark ∈ s'.seen := by
  unfold St.worker at h
  split at h
  · injection h with h; subst h; exact hl
  · split at h
    · next e q _ => injection h with h; subst h; exact pop_last (e := e) (q := q) hl
    · injection h with h; subst h; exact hl
  · injection h with h; subst h; exact hl
  · injection h with h; subst h; exact hl
  · split at h
    · next e q _ => injection h with h; subst h; exact pop_last (e := e) (q := q) hl
    · injection h with h; subst h; exact hl
  · injection h with h; subst h; exact hl
  · injection h with h; subst h; exact hl
  · injection h with h; subst h; exact hl
  · split at h
    · injection h with h; subst h; exact hl
    · simp at h
  · injection h with h; subst h; exact hl
  · split at h
    · injection h with h; subst h; exact hl
    · injection h with h; subst h; exact hl
  · simp at h

theorem Reach.minv {P : St → Act → Prop} {s : St} (h : Reach P s) : MInv s := by
  induction h with
  | init => exact ⟨by simp, by simp [CPc.tag], by simp [CPc.tag], .inl rfl⟩
  | @next s s' a _ _ hn ih =>
    cases a with
    | worker ch =>
      obtain ⟨h1, h2, h3, _⟩ := worker_frame hn
      exact minv_keep ih h1 h2 (by rw [h3]; exact fun _ _ _ h => h) (worker_last hn ih.last)
    | client t a => exact minv_client ih hn

/-- **C57.** When `notifyAndWaitForCompletion` returns, everything queued before it was called has been processed: for every
schedule, and however many threads call it at once. -/
theorem c57_processed (s s' : St) (h : Reach (fun _ _ => True) s) (t n : Nat) (before : List Entry) (hc : s.c t = .checking n before)
    (hn : s.next (.client t .markCheck) = some s') (hret : s'.c t = .idle) : before <+: s'.seen := by
  have i := h.minv
  simp only [St.next, St.client, hc, Option.some.injEq] at hn
  subst hn
  simp only [upd_same] at hret
  split at hret
  · simp at hret
  · next hl =>
    have htag : (s.c t).tag = some (n, before) := by rw [hc]; rfl
    have h1 := (i.tag t n before htag).1
    rcases i.last with h0 | hm
    · omega
    · obtain ⟨pre, post, hs⟩ := List.append_of_mem hm
      have hp : s.put = pre ++ .mark s.lastMark :: (post ++ s.queue) := by rw [← h.winv.fifo, hs]; simp
      have := i.place t n before htag pre s.lastMark (post ++ s.queue) hp (by omega)
      dsimp only
      rw [hs]
      exact this.trans (List.prefix_append _ _)

/-- **C56.** The application is suspended from a call of `suspend` to the next call of `resume`, which has the exec notified; nothing else suspends it or makes it resume. -/
theorem c56_suspended (s s' : St) (a : Act) (h : s.next a = some s') :
    (∀ t, a = .client t .suspend → s'.suspended = true) ∧ (∀ t, a = .client t .resume → s'.suspended = false ∧ s'.owes t = true) ∧
      ((∀ t, a ≠ .client t .suspend ∧ a ≠ .client t .resume) → s'.suspended = s.suspended) := by
  refine ⟨?_, ?_, fun hn => ?_⟩
  · rintro t rfl
    simp only [St.next, St.client] at h
    split at h <;> simp_all
    subst h; rfl
  · rintro t rfl
    simp only [St.next, St.client] at h
    split at h <;> simp_all
    subst h; simp [upd]
  · cases a with
    | worker ch => exact (worker_frame h).2.2.2.2.2
    | client t c =>
      simp only [St.next, St.client] at h
      split at h <;> simp_all [St.enqueue, St.notify] <;> (try subst h) <;> (try rfl)
      all_goals (obtain ⟨_, rfl⟩ := h; rfl)

end Verif.App
