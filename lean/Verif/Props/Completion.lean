import Verif.Props.App

/-!
C57–C59, continued: waiting for completion, waiting for plans to finish, opportunistic mode.
-/
namespace Verif.App

/-- The entries the executive must be stepped for. -/
def work (l : List Entry) : List Entry := l.filter fun e => match e with | .mark _ => false | _ => true

theorem work_append (a b : List Entry) : work (a ++ b) = work a ++ work b := by simp [work]

theorem work_prefix {a b : List Entry} (h : a <+: b) : work a <+: work b := by
  obtain ⟨c, rfl⟩ := h
  rw [work_append]
  exact List.prefix_append _ _

theorem pop_seen (s : St) (e : Entry) (q : List Entry) : (s.pop e q).1.seen = s.seen ++ [e] := by
  cases e <;> simp [St.pop, St.process]

theorem pop_ran (s : St) (e : Entry) (q : List Entry) : (s.pop e q).1.ran = s.ran := by
  cases e <;> simp [St.pop, St.process]

/-- The executive has been stepped since the last entry that needs it. -/
def WPc.stepped : WPc → Bool
  | .more | .scan false | .tidy _ | .report _ _ | .marks _ => true
  | _ => false

structure RInv (s : St) : Prop where
  ran : s.ran <+: s.seen
  stepped : s.w.stepped = true → work s.seen = work s.ran
  some : (0 < s.markSem ∨ ∃ t, (s.c t).passed = true) → ∃ pre m post, s.put = pre ++ .mark m :: post ∧ work pre <+: work s.ran

theorem rinv_keep {s s' : St} (i : RInv s) (hr : s'.ran = s.ran) (hs : s'.seen = s.seen) (hw : s'.w.stepped = true → s.w.stepped = true)
    (hp : ∃ l, s'.put = s.put ++ l) (hm : (0 < s'.markSem ∨ ∃ t, (s'.c t).passed = true) → 0 < s.markSem ∨ ∃ t, (s.c t).passed = true) : RInv s' where
  ran := by rw [hr, hs]; exact i.ran
  stepped := fun h => by rw [hr, hs]; exact i.stepped (hw h)
  some := fun h => by
    obtain ⟨pre, m, post, h1, h2⟩ := i.some (hm h)
    obtain ⟨l, hl⟩ := hp
    exact ⟨pre, m, post ++ l, by rw [hl, h1]; simp, by rw [hr]; exact h2⟩

/-- Taking and passing on the semaphore of completions. -/
theorem client_marks {s s' : St} {t : Nat} {a : Call} (h : s.client t a = some s') :
    (0 < s'.markSem ∨ ∃ u, (s'.c u).passed = true) → 0 < s.markSem ∨ ∃ u, (s.c u).passed = true := by
  have U : ∀ {x : CPc}, (∃ u, (upd s.c t x u).passed = true) → (x.passed = true → 0 < s.markSem ∨ ∃ u, (s.c u).passed = true) →
      0 < s.markSem ∨ ∃ u, (s.c u).passed = true := by
    rintro x ⟨u, hu⟩ hx
    by_cases e : u = t
    · subst e; rw [upd_same] at hu; exact hx hu
    · rw [upd_other _ _ e] at hu; exact .inr ⟨u, hu⟩
  unfold St.client at h
  split at h
  · injection h with h; subst h; exact id
  · injection h with h; subst h; rintro (h | h)
    · exact .inl h
    · exact U h (by simp [CPc.passed])
  · injection h with h; subst h; rintro (h | h)
    · exact .inl h
    · exact U h (by simp [CPc.passed])
  · injection h with h; subst h; exact id
  · injection h with h; subst h; exact id
  · injection h with h; subst h; exact id
  · injection h with h; subst h; exact id
  · injection h with h; subst h; rintro (h | h)
    · exact .inl h
    · exact U h (by simp [CPc.passed])
  · injection h with h; subst h; rintro (h | h)
    · exact .inl h
    · exact U h (by simp [CPc.passed])
  · injection h with h; subst h; rintro (h | h)
    · exact .inl h
    · exact U h (by simp [CPc.passed])
  · split at h
    · next hm => injection h with h; subst h; exact fun _ => .inl hm
    · simp at h
  · next n b hc => injection h with h; subst h; exact fun _ => .inr ⟨t, by rw [hc]; rfl⟩
  · next n b hc => injection h with h; subst h; exact fun _ => .inr ⟨t, by rw [hc]; rfl⟩
  · split at h
    · injection h with h; subst h; exact id
    · simp at h
  · simp at h

theorem rinv_pop {s : St} {e : Entry} {q : List Entry} (i : RInv s) (w : WPc)
    (hw : w.stepped = true → work (s.seen ++ [e]) = work s.ran) : RInv { (s.pop e q).1 with w := w } where
  ran := by
    dsimp only
    rw [pop_ran, pop_seen]
    exact i.ran.trans (List.prefix_append _ _)
  stepped := fun h => by
    dsimp only at h ⊢
    rw [pop_ran, pop_seen]; exact hw h
  some := by
    obtain ⟨p1, p2, p3, p4, p5, p6, p7, p8, p9, p10, p11, p12, p13, p14, p15, p16⟩ := process_fields s e
    intro h
    simp only [St.pop, p7, p15] at h
    have := i.some h
    simpa only [St.pop, p2, p4] using this

theorem rinv_worker {s s' : St} {ch : Choice} (i : RInv s) (m : MInv s) (f : s.seen ++ s.queue = s.put) (h : s.worker ch = some s') : RInv s' := by
  unfold St.worker at h
  split at h
  · injection h with h; subst h
    exact rinv_keep i rfl rfl (by simp [WPc.stepped]) ⟨[], by simp⟩ id
  · next k hw =>
    split at h
    · next e q hq =>
      injection h with h; subst h
      obtain ⟨p1, p2, p3, p4, p5, p6, p7, p8, p9, p10, p11, p12, p13, p14, p15, p16⟩ := process_fields s e
      have := rinv_pop (e := e) (q := q) i (s.pop e q).1.w (by rw [show (s.pop e q).1.w = .scan0 k by simp only [St.pop, p14, hw]]; simp [WPc.stepped])
      exact this
    · injection h with h; subst h
      exact rinv_keep i rfl rfl (by simp [WPc.stepped]) ⟨[], by simp⟩ id
  · next k hw =>
    injection h with h; subst h
    refine ⟨List.prefix_refl _, fun _ => rfl, fun h => ?_⟩
    obtain ⟨pre, m, post, h1, h2⟩ := i.some h
    exact ⟨pre, m, post, h1, h2.trans (work_prefix i.ran)⟩
  · next hw =>
    injection h with h; subst h
    exact rinv_keep i rfl rfl (fun _ => by rw [hw]; rfl) ⟨[], by simp⟩ id
  · next b hw =>
    split at h
    · next e q hq =>
      injection h with h; subst h
      refine rinv_pop i _ (fun hs => ?_)
      cases b with
      | true => simp [WPc.stepped] at hs
      | false =>
        have h0 := i.stepped (by rw [hw]; rfl)
        cases e with
        | mark n => rw [work_append, h0]; simp [work]
        | event id => simp [WPc.stepped, St.pop, St.process] at hs
        | plan p => simp [WPc.stepped, St.pop, St.process] at hs
    · next hq =>
      injection h with h; subst h
      cases b
      · exact rinv_keep i rfl rfl (fun _ => by rw [hw]; rfl) ⟨[], by simp⟩ id
      · exact rinv_keep i rfl rfl (by simp [WPc.stepped]) ⟨[], by simp⟩ id
  · next k hw =>
    injection h with h; subst h
    exact rinv_keep i rfl rfl (fun _ => by rw [hw]; rfl) ⟨[], by simp⟩ id
  · next k fin hw =>
    injection h with h; subst h
    exact rinv_keep i rfl rfl (fun _ => by rw [hw]; rfl) ⟨[], by simp⟩ id
  · next k hw =>
    injection h with h; subst h
    have h0 := i.stepped (by rw [hw]; rfl)
    refine ⟨i.ran, by simp [WPc.stepped], fun hm => ?_⟩
    by_cases hl : s.oldMark < s.lastMark
    · rcases m.last with h' | h'
      · omega
      · obtain ⟨pre, post, hs⟩ := List.append_of_mem h'
        refine ⟨pre, s.lastMark, post ++ s.queue, by dsimp only; rw [← f, hs]; simp, ?_⟩
        dsimp only
        rw [← h0, hs]
        exact work_prefix (List.prefix_append _ _)
    · simp only [if_neg hl] at hm
      exact i.some hm
  · next hw =>
    split at h
    · injection h with h; subst h
      exact rinv_keep i rfl rfl (by simp [WPc.stepped]) ⟨[], by simp⟩ id
    · simp at h
  · next hw =>
    injection h with h; subst h
    exact rinv_keep i rfl rfl (by dsimp only; split <;> simp [WPc.stepped]) ⟨[], by simp⟩ id
  · next hw =>
    split at h
    · injection h with h; subst h
      exact rinv_keep i rfl rfl (by simp [WPc.stepped]) ⟨[], by simp⟩ id
    · injection h with h; subst h
      exact rinv_keep i rfl rfl (by simp [WPc.stepped]) ⟨[], by simp⟩ id
  · simp at h

theorem Reach.rinv {P : St → Act → Prop} {s : St} (h : Reach P s) : RInv s := by
  induction h with
  | init => exact ⟨List.prefix_refl _, fun _ => rfl, by simp [CPc.passed]⟩
  | @next s s' a hr _ hn ih =>
    cases a with
    | worker ch => exact rinv_worker ih hr.minv hr.winv.fifo hn
    | client t a =>
      have c := client_step hn
      exact rinv_keep ih c.ran c.seen (by rw [c.w]; exact id) c.grow (client_marks hn)

/-- **C57.** When the first call of `notifyAndWaitForCompletion` returns, the executive has also been stepped with everything queued before
(marks aside, which are not for it). -/
theorem c57_first_call_partial (s s' : St) (h : Reach (fun _ _ => True) s) (t : Nat) (before : List Entry) (hc : s.c t = .checking 1 before)
    (_ : s.next (.client t .markCheck) = some s') (_ : s'.c t = .idle) : work before <+: work s.ran := by
  have htag : (s.c t).tag = some (1, before) := by rw [hc]; rfl
  obtain ⟨pre, m, post, h1, h2⟩ := h.rinv.some (.inr ⟨t, by rw [hc]; rfl⟩)
  have := h.minv.place t 1 before htag pre m post h1 (h.minv.marks m (by rw [h1]; simp)).1
  exact (work_prefix this).trans h2

/-! ## Schedules as examples -/

theorem reach_run {P : St → Act → Prop} (as : List Act) : ∀ {s s' : St}, Reach P s → (∀ s a, P s a) → s.run as = some s' → Reach P s' := by
  induction as with
  | nil => intro s s' h _ hr; simp only [St.run, Option.some.injEq] at hr; rw [← hr]; exact h
  | cons a as ih =>
    intro s s' h hP hr
    unfold St.run at hr
    split at hr
    · next t ht => exact ih (.next h (hP _ _) ht) hP hr
    · simp at hr

/-- `n` steps of the worker. -/
def work_ (n : Nat) : List Act := List.replicate n (.worker {})

/-- Client `t`: everything up to the semaphore in `notifyAndWaitForCompletion`. -/
def callWait (t : Nat) : List Act := [.client t .number, .client t .mark, .client t .markNotify]

/-- The rest of it. -/
def callPass (t : Nat) : List Act := [.client t .markWait, .client t .markPost]

/-- **C57 fails** for later calls as far as running the executive goes: the semaphore of completions, once raised, stays up, so the
second call only waits for `m_lastMark`, which is set while the queue is being emptied: it returns although the executive has not been stepped with
the event queued before. -/
theorem c57_later_call : ∃ s s' before, Reach (fun _ _ => True) s ∧ s.c 1 = .checking 2 before ∧ .event 7 ∈ before ∧
    s.next (.client 1 .markCheck) = some s' ∧ s'.c 1 = .idle ∧ .event 7 ∉ s'.ran := by
  refine ⟨_, _, _, reach_run (work_ 6 ++ callWait 1 ++ work_ 12 ++ callPass 1 ++ [.client 1 .markCheck, .client 1 (.event 7)] ++
    callWait 1 ++ callPass 1 ++ work_ 6) .init (fun _ _ => trivial) rfl, rfl, ?_, rfl, rfl, ?_⟩
  · decide
  · decide

/-! ## Nobody is left waiting for a completion -/

/-- Calls of `notifyAndWaitForCompletion` number and queue their marks one after the other. -/
def Serial (s : St) : Act → Prop
  | .client _ .number => ∀ t n b, s.c t ≠ .marked n b
  | _ => True

/-- The semaphore of completions is up, or a client has it and will pass it on. -/
def Tok (s : St) : Prop := 0 < s.markSem ∨ ∃ t n b, s.c t = .passing n b

/-- Between reading `m_lastMark` and testing it. -/
def WPc.cycle : WPc → Bool
  | .scan0 _ | .exec _ | .more | .scan _ | .tidy _ | .report _ _ | .marks _ => true
  | _ => false

structure SInv (s : St) : Prop where
  sorted : ∀ pre m post, s.put = pre ++ .mark m :: post → ∀ k, .mark k ∈ pre → k < m
  fresh : ∀ t n b, s.c t = .marked n b → ∀ k, .mark k ∈ s.put → k < n
  one : ∀ t n b t' n' b', s.c t = .marked n b → s.c t' = .marked n' b' → t = t'
  done : ∀ t n b, (s.c t).tag = some (n, b) → (∃ b', s.c t = .marked n b') ∨ .mark n ∈ s.put
  seen : ∀ k, .mark k ∈ s.seen → k ≤ s.lastMark
  old : s.w.cycle = true → s.oldMark ≤ s.lastMark ∧ (0 < s.oldMark → Tok s)
  rest : s.w.cycle = false → 0 < s.lastMark → Tok s

theorem sinv_keep {s s' : St} (i : SInv s) (hp : s'.put = s.put) (hs : s'.seen = s.seen) (hl : s'.lastMark = s.lastMark)
    (hm : ∀ t n b, s'.c t = .marked n b → s.c t = .marked n b)
    (ht : ∀ t n b, (s'.c t).tag = some (n, b) → (s.c t).tag = some (n, b) ∧ ((∃ b', s.c t = .marked n b') → ∃ b', s'.c t = .marked n b'))
    (h1 : s'.w.cycle = true → s'.oldMark ≤ s.lastMark ∧ (0 < s'.oldMark → Tok s'))
    (h2 : s'.w.cycle = false → 0 < s.lastMark → Tok s') : SInv s' where
  sorted := by rw [hp]; exact i.sorted
  fresh := fun t n b h => by rw [hp]; exact i.fresh t n b (hm t n b h)
  one := fun t n b t' n' b' h h' => i.one t n b t' n' b' (hm _ _ _ h) (hm _ _ _ h')
  done := fun t n b h => by rw [hp]; exact (i.done t n b (ht t n b h).1).imp_left (ht t n b h).2
  seen := by rw [hs, hl]; exact i.seen
  old := by rw [hl]; exact h1
  rest := by rw [hl]; exact h2

/-- A client step as far as the semaphore of completions and the worker go. -/
theorem sinv_tok {s s' : St} (i : SInv s) (hw : s'.w = s.w) (ho : s'.oldMark = s.oldMark) (hT : Tok s → Tok s') :
    (s'.w.cycle = true → s'.oldMark ≤ s.lastMark ∧ (0 < s'.oldMark → Tok s')) ∧ (s'.w.cycle = false → 0 < s.lastMark → Tok s') := by
  rw [hw, ho]
  exact ⟨fun h => ⟨(i.old h).1, fun h' => hT ((i.old h).2 h')⟩, fun h h' => hT (i.rest h h')⟩

theorem tok_upd {s s' : St} {t : Nat} {x : CPc} (hm : s'.markSem = s.markSem) (hc : s'.c = upd s.c t x) (ht : ∀ n b, s.c t ≠ .passing n b) :
    Tok s → Tok s' := by
  rintro (h | ⟨u, n, b, h⟩)
  · exact .inl (by rw [hm]; exact h)
  · refine .inr ⟨u, n, b, ?_⟩
    rw [hc, upd_other]
    · exact h
    · rintro rfl; exact ht n b h

theorem marked_upd {s : St} {t : Nat} {x : CPc} (hx : ∀ n b, x ≠ .marked n b) : ∀ u n b, upd s.c t x u = .marked n b → s.c u = .marked n b := by
  intro u n b h
  by_cases e : u = t
  · subst e; rw [upd_same] at h; exact absurd h (hx n b)
  · rw [upd_other _ _ e] at h; exact h

theorem tag_upd' {s : St} {t : Nat} {x : CPc} (hx : ∀ n b, x.tag = some (n, b) → (s.c t).tag = some (n, b) ∧ (¬ ∃ b', s.c t = .marked n b')) :
    ∀ u n b, ((upd s.c t x) u).tag = some (n, b) → (s.c u).tag = some (n, b) ∧ ((∃ b', s.c u = .marked n b') → ∃ b', upd s.c t x u = .marked n b') := by
  intro u n b h
  by_cases hu : u = t
  · subst hu; rw [upd_same] at h
    exact ⟨(hx n b h).1, fun h' => absurd h' (hx n b h).2⟩
  · rw [upd_other _ _ hu] at h
    exact ⟨h, fun h' => by rw [upd_other _ _ hu]; exact h'⟩

/-- Queueing something that is not a mark. -/
theorem sinv_enqueue {s s' : St} {e : Entry} (i : SInv s) (he : ∀ m, e ≠ .mark m) (hp : s'.put = s.put ++ [e]) (hs : s'.seen = s.seen)
    (hl : s'.lastMark = s.lastMark) (hm : ∀ t n b, s'.c t = .marked n b → s.c t = .marked n b)
    (ht : ∀ t n b, (s'.c t).tag = some (n, b) → (s.c t).tag = some (n, b) ∧ ((∃ b', s.c t = .marked n b') → ∃ b', s'.c t = .marked n b'))
    (hw : s'.w = s.w) (ho : s'.oldMark = s.oldMark) (hT : Tok s → Tok s') : SInv s' where
  sorted := fun pre m post h k hk => by
    rw [hp] at h
    rcases split_snoc h with ⟨h, _⟩ | ⟨post', h⟩
    · exact absurd h (he m)
    · exact i.sorted pre m post' h k hk
  fresh := fun t n b h k hk => by
    rw [hp, List.mem_append] at hk
    rcases hk with hk | hk
    · exact i.fresh t n b (hm t n b h) k hk
    · rw [List.mem_singleton] at hk; exact absurd hk.symm (he k)
  one := fun t n b t' n' b' h h' => i.one t n b t' n' b' (hm _ _ _ h) (hm _ _ _ h')
  done := fun t n b h => by
    rw [hp]
    exact (i.done t n b (ht t n b h).1).imp (ht t n b h).2 (fun h => List.mem_append_left _ h)
  seen := by rw [hs, hl]; exact i.seen
  old := by rw [hl]; exact (sinv_tok i hw ho hT).1
  rest := by rw [hl]; exact (sinv_tok i hw ho hT).2

theorem sinv_client {s s' : St} {t : Nat} {a : Call} (i : SInv s) (mi : MInv s) (hser : Serial s (.client t a)) (h : s.client t a = some s') : SInv s' := by
  unfold St.client at h
  split at h
  · injection h with h; subst h
    exact sinv_enqueue i (by simp) rfl rfl rfl (fun _ _ _ h => h) (fun _ _ _ h => ⟨h, id⟩) rfl rfl id
  · next hc =>
    injection h with h; subst h
    exact sinv_enqueue i (by simp) rfl rfl rfl (marked_upd (by simp)) (tag_upd' (by simp [CPc.tag])) rfl rfl (tok_upd rfl rfl (by simp [hc]))
  · next hc =>
    injection h with h; subst h
    have T := sinv_tok (s' := { s with planLoaded := true, c := upd s.c t .idle }) i rfl rfl (tok_upd rfl rfl (by simp [hc]))
    exact sinv_keep i rfl rfl rfl (marked_upd (by simp)) (tag_upd' (by simp [CPc.tag])) T.1 T.2
  · injection h with h; subst h
    have T := sinv_tok (s' := s.notify t) i rfl rfl id
    exact sinv_keep i rfl rfl rfl (fun _ _ _ h => h) (fun _ _ _ h => ⟨h, id⟩) T.1 T.2
  · injection h with h; subst h
    exact sinv_keep i rfl rfl rfl (fun _ _ _ h => h) (fun _ _ _ h => ⟨h, id⟩) i.old i.rest
  · injection h with h; subst h
    exact sinv_keep i rfl rfl rfl (fun _ _ _ h => h) (fun _ _ _ h => ⟨h, id⟩) i.old i.rest
  · injection h with h; subst h
    exact sinv_keep i rfl rfl rfl (fun _ _ _ h => h) (fun _ _ _ h => ⟨h, id⟩) i.old i.rest
  · next hc =>
    injection h with h; subst h
    have T := sinv_tok (s' := { s with markCount := s.markCount + 1, c := upd s.c t (.marked (s.markCount + 1) s.put) }) i rfl rfl (tok_upd rfl rfl (by simp [hc]))
    refine ⟨i.sorted, ?_, ?_, ?_, i.seen, T.1, T.2⟩
    · intro u n b hu k hk
      dsimp only at hu hk
      have := mi.marks k hk
      by_cases e : u = t
      · subst e; rw [upd_same] at hu; injection hu with h1 _; omega
      · rw [upd_other _ _ e] at hu; exact i.fresh u n b hu k hk
    · intro u n b u' n' b' hu hu'
      dsimp only at hu hu'
      have A : ∀ v n b, upd s.c t (.marked (s.markCount + 1) s.put) v = .marked n b → v = t := by
        intro v n b hv
        by_cases e : v = t
        · exact e
        · rw [upd_other _ _ e] at hv; exact absurd hv (hser v n b)
      rw [A u n b hu, A u' n' b' hu']
    · intro u n b hu
      dsimp only at hu ⊢
      by_cases e : u = t
      · subst e
        simp only [upd_same, CPc.tag, Option.some.injEq, Prod.mk.injEq] at hu ⊢
        exact .inl ⟨s.put, by rw [hu.1]⟩
      · rw [upd_other _ _ e] at hu ⊢; exact i.done u n b hu
  · next n b hc =>
    injection h with h; subst h
    have T := sinv_tok (s' := { s.enqueue t (.mark n) with c := upd s.c t (.queued n b) }) i rfl rfl (tok_upd rfl rfl (by simp [hc]))
    have hmk : ∀ u n' b', upd s.c t (.queued n b) u = .marked n' b' → False := by
      intro u n' b' hu
      have h1 := marked_upd (s := s) (x := .queued n b) (by simp) u n' b' hu
      have := i.one t n b u n' b' hc h1
      subst this
      rw [upd_same] at hu; simp at hu
    refine ⟨?_, fun u n' b' hu => (hmk u n' b' hu).elim, fun u n' b' _ _ _ hu => (hmk u n' b' hu).elim, ?_, i.seen, T.1, T.2⟩
    · intro pre m post h k hk
      rcases split_snoc h with ⟨h1, h2⟩ | ⟨post', h2⟩
      · injection h1 with h1; subst h1
        rw [← h2] at hk
        exact i.fresh t n b hc k hk
      · exact i.sorted pre m post' h2 k hk
    · intro u n' b' hu
      right
      dsimp only [St.enqueue] at hu ⊢
      by_cases e : u = t
      · subst e
        simp only [upd_same, CPc.tag, Option.some.injEq, Prod.mk.injEq] at hu
        rw [hu.1]; simp
      · rw [upd_other _ _ e] at hu
        rcases i.done u n' b' hu with ⟨b2, h2⟩ | h2
        · exact absurd (i.one u n' b2 t n b h2 hc) e
        · exact List.mem_append_left _ h2
  · next n b hc =>
    injection h with h; subst h
    have T := sinv_tok (s' := { s.notify t with c := upd s.c t (.waiting n b) }) i rfl rfl (tok_upd rfl rfl (by simp [hc]))
    exact sinv_keep i rfl rfl rfl (marked_upd (by simp)) (tag_upd' (by simp [CPc.tag, hc])) T.1 T.2
  · next n b hc =>
    split at h
    · injection h with h; subst h
      have T := sinv_tok (s' := { s with markSem := s.markSem - 1, c := upd s.c t (.passing n b) }) i rfl rfl (fun _ => .inr ⟨t, n, b, by simp⟩)
      exact sinv_keep i rfl rfl rfl (marked_upd (by simp)) (tag_upd' (by simp [CPc.tag, hc])) T.1 T.2
    · simp at h
  · next n b hc =>
    injection h with h; subst h
    have T := sinv_tok (s' := { s with markSem := s.markSem + 1, c := upd s.c t (.checking n b) }) i rfl rfl (fun _ => .inl (Nat.succ_pos _))
    exact sinv_keep i rfl rfl rfl (marked_upd (by simp)) (tag_upd' (by simp [CPc.tag, hc])) T.1 T.2
  · next n b hc =>
    injection h with h; subst h
    have T := sinv_tok (s' := { s with c := upd s.c t (if s.lastMark < n then .waiting n b else .idle) }) i rfl rfl (tok_upd rfl rfl (by simp [hc]))
    exact sinv_keep i rfl rfl rfl (marked_upd (by split <;> simp)) (tag_upd' (by split <;> simp [CPc.tag, hc])) T.1 T.2
  · split at h
    · injection h with h; subst h
      exact sinv_keep i rfl rfl rfl (fun _ _ _ h => h) (fun _ _ _ h => ⟨h, id⟩) i.old i.rest
    · simp at h
  · simp at h

theorem sinv_pop {s : St} {e : Entry} {q : List Entry} (i : SInv s) (l : s.lastMark = 0 ∨ .mark s.lastMark ∈ s.seen) (f : s.seen ++ s.queue = s.put) (hq : s.queue = e :: q) (hc : s.w.cycle = true) (w : WPc)
    (hw : w.cycle = true) : SInv { (s.pop e q).1 with w := w } := by
  obtain ⟨p1, p2, p3, p4, p5, p6, p7, p8, p9, p10, p11, p12, p13, p14, p15, p16⟩ := process_fields s e
  have hT : Tok { (s.pop e q).1 with w := w } ↔ Tok s := by simp only [Tok, St.pop, p7, p15]
  have hlast : s.lastMark ≤ (s.pop e q).1.lastMark ∧ ∀ k, .mark k ∈ s.seen ++ [e] → k ≤ (s.pop e q).1.lastMark := by
    have hlow : ∀ k, .mark k ∈ s.seen → k ≤ s.lastMark := i.seen
    cases e with
    | mark n =>
      simp only [St.pop, St.process]
      have hs : s.put = s.seen ++ .mark n :: q := by rw [← f, hq]
      have hk := i.sorted s.seen n q hs
      have key : ∀ k, .mark k ∈ s.seen ++ [.mark n] → k ≤ n := by
        intro k h
        rw [List.mem_append] at h
        rcases h with h | h
        · have := hk k h; omega
        · simp at h; omega
      refine ⟨?_, key⟩
      rcases l with h | h
      · omega
      · have := hk _ h; omega
    | event id => simp only [St.pop, St.process]; exact ⟨Nat.le_refl _, fun k h => hlow k (by simpa using h)⟩
    | plan p => simp only [St.pop, St.process]; exact ⟨Nat.le_refl _, fun k h => hlow k (by simpa using h)⟩
  refine ⟨?_, ?_, ?_, ?_, ?_, ?_, ?_⟩
  · simp only [St.pop, p2]; exact i.sorted
  · simp only [St.pop, p2, p15]; exact i.fresh
  · simp only [St.pop, p15]; exact i.one
  · simp only [St.pop, p2, p15]; exact i.done
  · dsimp only; rw [pop_seen]; exact hlast.2
  · intro _
    rw [hT]
    have := i.old hc
    refine ⟨?_, by simp only [St.pop, p10]; exact this.2⟩
    have h1 : (s.pop e q).1.oldMark = s.oldMark := by simp only [St.pop, p10]
    dsimp only
    rw [h1]; omega
  · dsimp only; rw [hw]; simp

theorem sinv_worker {s s' : St} {ch : Choice} (i : SInv s) (l : s.lastMark = 0 ∨ .mark s.lastMark ∈ s.seen) (f : s.seen ++ s.queue = s.put)
    (h : s.worker ch = some s') : SInv s' := by
  have K : ∀ t n b, (s.c t).tag = some (n, b) → (s.c t).tag = some (n, b) ∧ ((∃ b', s.c t = .marked n b') → ∃ b', s.c t = .marked n b') :=
    fun _ _ _ h => ⟨h, id⟩
  unfold St.worker at h
  split at h
  · next k hw =>
    injection h with h; subst h
    exact sinv_keep i rfl rfl rfl (fun _ _ _ h => h) K (fun _ => ⟨Nat.le_refl _, i.rest (by rw [hw]; rfl)⟩) (by simp [WPc.cycle])
  · next k hw =>
    split at h
    · next e q hq =>
      injection h with h; subst h
      have hw' : (s.pop e q).1.w = .scan0 k := by
        obtain ⟨p1, p2, p3, p4, p5, p6, p7, p8, p9, p10, p11, p12, p13, p14, p15, p16⟩ := process_fields s e
        simp only [St.pop, p14, hw]
      exact sinv_pop i l f hq (by rw [hw]; rfl) (s.pop e q).1.w (by rw [hw']; rfl)
    · injection h with h; subst h
      exact sinv_keep i rfl rfl rfl (fun _ _ _ h => h) K (fun _ => i.old (by rw [hw]; rfl)) (by simp [WPc.cycle])
  · next k hw =>
    injection h with h; subst h
    refine sinv_keep i rfl rfl rfl (fun _ _ _ h => h) K (fun _ => i.old (by rw [hw]; rfl)) ?_
    cases k <;> simp [WPc.cycle]
  · next hw =>
    injection h with h; subst h
    refine sinv_keep i rfl rfl rfl (fun _ _ _ h => h) K (fun _ => i.old (by rw [hw]; rfl)) ?_
    dsimp only; split <;> simp [WPc.cycle]
  · next b hw =>
    split at h
    · next e q hq =>
      injection h with h; subst h
      exact sinv_pop i l f hq (by rw [hw]; rfl) _ rfl
    · injection h with h; subst h
      refine sinv_keep i rfl rfl rfl (fun _ _ _ h => h) K (fun _ => i.old (by rw [hw]; rfl)) ?_
      dsimp only; split <;> simp [WPc.cycle]
  · next k hw =>
    injection h with h; subst h
    exact sinv_keep i rfl rfl rfl (fun _ _ _ h => h) K (fun _ => i.old (by rw [hw]; rfl)) (by simp [WPc.cycle])
  · next k fin hw =>
    injection h with h; subst h
    exact sinv_keep i rfl rfl rfl (fun _ _ _ h => h) K (fun _ => i.old (by rw [hw]; rfl)) (by simp [WPc.cycle])
  · next k hw =>
    injection h with h; subst h
    refine sinv_keep i rfl rfl rfl (fun _ _ _ h => h) K (by simp [WPc.cycle]) (fun _ hl => ?_)
    obtain ⟨h1, h2⟩ := i.old (by rw [hw]; rfl)
    by_cases hlt : s.oldMark < s.lastMark
    · exact .inl (by simp [hlt])
    · have := h2 (by omega)
      simp only [if_neg hlt]
      exact this
  · next hw =>
    split at h
    · injection h with h; subst h
      exact sinv_keep i rfl rfl rfl (fun _ _ _ h => h) K (by simp [WPc.cycle]) (fun _ => i.rest (by rw [hw]; rfl))
    · simp at h
  · next hw =>
    injection h with h; subst h
    refine sinv_keep i rfl rfl rfl (fun _ _ _ h => h) K ?_ (fun _ => i.rest (by rw [hw]; rfl))
    dsimp only; split <;> simp [WPc.cycle]
  · next hw =>
    split at h
    · injection h with h; subst h
      exact sinv_keep i rfl rfl rfl (fun _ _ _ h => h) K (by simp [WPc.cycle]) (fun _ => i.rest (by rw [hw]; rfl))
    · injection h with h; subst h
      exact sinv_keep i rfl rfl rfl (fun _ _ _ h => h) K (by simp [WPc.cycle]) (fun _ => i.rest (by rw [hw]; rfl))
  · simp at h

theorem Reach.mono {P Q : St → Act → Prop} (hPQ : ∀ s a, P s a → Q s a) {s : St} (h : Reach P s) : Reach Q s := by
  induction h with
  | init => exact .init
  | next _ hp hn ih => exact .next ih (hPQ _ _ hp) hn

theorem sinv_reach {s : St} (h : Reach Serial s) : SInv s := by
  induction h with
  | init => exact ⟨by simp, by simp, by simp, by simp [CPc.tag], by simp, by simp [WPc.cycle], by simp⟩
  | @next s s' a hr hser hn ih =>
    cases a with
    | worker ch => exact sinv_worker ih hr.minv.last hr.winv.fifo hn
    | client t a => exact sinv_client ih hr.minv hser hn

/-- **C57.** If marks are numbered and queued one call after the other, nobody is left waiting: once the worker blocks, all clients having notified
it, the condition that a waiting call waits for holds, and the semaphore is up or in the hands of a client about to pass it on. -/
theorem c57_wakes_partial (s : St) (h : Reach Serial s) (hb : Asleep s) (hs : s.suspended = false) (ho : ∀ t, s.owes t = false)
    (t n : Nat) (before : List Entry) (hc : s.c t = .waiting n before) :
    n ≤ s.lastMark ∧ (0 < s.markSem ∨ ∃ t' n' b', s.c t' = .passing n' b') := by
  have i := sinv_reach h
  have hput := (c56_no_lost_wakeup s (h.mono (fun _ _ _ => trivial)) hb hs ho).1
  have htag : (s.c t).tag = some (n, before) := by rw [hc]; rfl
  have hn : n ≤ s.lastMark := by
    rcases i.done t n before htag with ⟨b', h'⟩ | h'
    · rw [hc] at h'; simp at h'
    · rw [← hput] at h'; exact i.seen n h'
  refine ⟨hn, i.rest (by rw [hb.1]; rfl) ?_⟩
  have := (h.minv.tag t n before htag).1
  omega

/-- Client `2` waits for a mark that will not be seen. -/
def Hung (s : St) : Prop :=
  (∃ b, s.c 2 = .waiting 2 b ∨ s.c 2 = .passing 2 b ∨ s.c 2 = .checking 2 b) ∧ s.lastMark < 2 ∧ (∀ n, .mark n ∉ s.queue) ∧ ∀ t n b, s.c t ≠ .marked n b

/-- A worker step from a state without marks in the queue. -/
theorem hung_worker {s s' : St} {ch : Choice} (hq : ∀ n, .mark n ∉ s.queue) (h : s.worker ch = some s') :
    s'.lastMark = s.lastMark ∧ (∀ n, .mark n ∉ s'.queue) := by
  have P : ∀ e q, s.queue = e :: q → (s.pop e q).1.lastMark = s.lastMark ∧ ∀ n, .mark n ∉ (s.pop e q).1.queue := by
    intro e q he
    refine ⟨?_, ?_⟩
    · cases e with
      | mark n => exact absurd (by rw [he]; simp) (hq n)
      | event _ => rfl
      | plan _ => rfl
    · intro n hn
      have : (s.pop e q).1.queue = q := by cases e <;> rfl
      rw [this] at hn
      exact hq n (by rw [he]; exact List.mem_cons_of_mem _ hn)
  unfold St.worker at h
  split at h
  · injection h with h; subst h; exact ⟨rfl, hq⟩
  · split at h
    · next e q he => injection h with h; subst h; exact P e q he
    · injection h with h; subst h; exact ⟨rfl, hq⟩
  · injection h with h; subst h; exact ⟨rfl, hq⟩
  · injection h with h; subst h; exact ⟨rfl, hq⟩
  · split at h
    · next e q he => injection h with h; subst h; exact P e q he
    · injection h with h; subst h; exact ⟨rfl, hq⟩
  · injection h with h; subst h; exact ⟨rfl, hq⟩
  · injection h with h; subst h; exact ⟨rfl, hq⟩
  · injection h with h; subst h; exact ⟨rfl, hq⟩
  · split at h
    · injection h with h; subst h; exact ⟨rfl, hq⟩
    · simp at h
  · injection h with h; subst h; exact ⟨rfl, hq⟩
  · split at h
    · injection h with h; subst h; exact ⟨rfl, hq⟩
    · injection h with h; subst h; exact ⟨rfl, hq⟩
  · simp at h

theorem hung_other {s : St} {t : Nat} {x : CPc} (h2 : t ≠ 2) (hx : ∀ n b, x ≠ .marked n b)
    (hh : (∃ b, s.c 2 = .waiting 2 b ∨ s.c 2 = .passing 2 b ∨ s.c 2 = .checking 2 b) ∧ ∀ t n b, s.c t ≠ .marked n b) :
    (∃ b, upd s.c t x 2 = .waiting 2 b ∨ upd s.c t x 2 = .passing 2 b ∨ upd s.c t x 2 = .checking 2 b) ∧ ∀ u n b, upd s.c t x u ≠ .marked n b := by
  rw [upd_other _ _ (Ne.symm h2)]
  refine ⟨hh.1, fun u n b => ?_⟩
  by_cases e : u = t
  · subst e; rw [upd_same]; exact hx n b
  · rw [upd_other _ _ e]; exact hh.2 u n b

theorem hung_next {s s' : St} {a : Act} (hh : Hung s) (ha : ∀ t, a ≠ .client t .number) (h : s.next a = some s') : Hung s' := by
  obtain ⟨hc, hl, hq, hm⟩ := hh
  cases a with
  | worker ch =>
    obtain ⟨h1, h2⟩ := hung_worker hq h
    have h3 := (worker_frame h).2.2.1
    exact ⟨by rw [h3]; exact hc, by rw [h1]; exact hl, h2, by rw [h3]; exact hm⟩
  | client t a =>
    have hqe : ∀ e, (∀ n, e ≠ .mark n) → ∀ n, .mark n ∉ s.queue ++ [e] := by
      intro e he n hn
      rw [List.mem_append, List.mem_singleton] at hn
      rcases hn with hn | hn
      · exact hq n hn
      · exact he n hn.symm
    have N2 : ∀ {x : CPc}, s.c t = x → (∀ b, x ≠ .waiting 2 b ∧ x ≠ .passing 2 b ∧ x ≠ .checking 2 b) → t ≠ 2 := by
      rintro x hx hne rfl
      obtain ⟨b, h⟩ := hc
      rw [hx] at h
      rcases h with h | h | h
      · exact (hne b).1 h
      · exact (hne b).2.1 h
      · exact (hne b).2.2 h
    simp only [St.next] at h
    unfold St.client at h
    split at h
    · injection h with h; subst h; exact ⟨hc, hl, hqe _ (by simp), hm⟩
    · next hi =>
      injection h with h; subst h
      have := hung_other (N2 hi (by simp)) (x := .adding) (by simp) ⟨hc, hm⟩
      exact ⟨this.1, hl, hqe _ (by simp), this.2⟩
    · next hi =>
      injection h with h; subst h
      have := hung_other (N2 hi (by simp)) (x := .idle) (by simp) ⟨hc, hm⟩
      exact ⟨this.1, hl, hq, this.2⟩
    · injection h with h; subst h; exact ⟨hc, hl, hq, hm⟩
    · injection h with h; subst h; exact ⟨hc, hl, hq, hm⟩
    · injection h with h; subst h; exact ⟨hc, hl, hq, hm⟩
    · injection h with h; subst h; exact ⟨hc, hl, hq, hm⟩
    · exact absurd rfl (ha t)
    · next n b hi => exact absurd hi (hm t n b)
    · next n b hi =>
      injection h with h; subst h
      have := hung_other (N2 hi (by simp)) (x := .waiting n b) (by simp) ⟨hc, hm⟩
      exact ⟨this.1, hl, hq, this.2⟩
    · next n b hi =>
      split at h
      · injection h with h; subst h
        by_cases e : t = 2
        · subst e
          obtain ⟨b', h'⟩ := hc
          rw [hi] at h'; simp at h'
          refine ⟨⟨b, by simp [h'.1]⟩, hl, hq, fun u n' b' => ?_⟩
          by_cases e : u = 2
          · subst e; simp
          · dsimp only; rw [upd_other _ _ e]; exact hm u n' b'
        · have := hung_other e (x := .passing n b) (by simp) ⟨hc, hm⟩
          exact ⟨this.1, hl, hq, this.2⟩
      · simp at h
    · next n b hi =>
      injection h with h; subst h
      by_cases e : t = 2
      · subst e
        obtain ⟨b', h'⟩ := hc
        rw [hi] at h'; simp at h'
        refine ⟨⟨b, by simp [h'.1]⟩, hl, hq, fun u n' b' => ?_⟩
        by_cases e : u = 2
        · subst e; simp
        · dsimp only; rw [upd_other _ _ e]; exact hm u n' b'
      · have := hung_other e (x := .checking n b) (by simp) ⟨hc, hm⟩
        exact ⟨this.1, hl, hq, this.2⟩
    · next n b hi =>
      injection h with h; subst h
      by_cases e : t = 2
      · subst e
        obtain ⟨b', h'⟩ := hc
        rw [hi] at h'; simp at h'
        refine ⟨⟨b, ?_⟩, hl, hq, fun u n' b' => ?_⟩
        · dsimp only; rw [if_pos (by omega)]; simp [h'.1]
        · by_cases e : u = 2
          · subst e; dsimp only; rw [if_pos (by omega)]; simp
          · dsimp only; rw [upd_other _ _ e]; exact hm u n' b'
      · have := hung_other e (x := if s.lastMark < n then .waiting n b else .idle) (by split <;> simp) ⟨hc, hm⟩
        exact ⟨this.1, hl, hq, this.2⟩
    · split at h
      · injection h with h; subst h; exact ⟨hc, hl, hq, hm⟩
      · simp at h
    · simp at h

theorem hung_run (as : List Act) (ha : ∀ a ∈ as, ∀ t, a ≠ .client t .number) : ∀ {s s' : St}, Hung s → s.run as = some s' → Hung s' := by
  induction as with
  | nil => intro s s' h hr; simp only [St.run, Option.some.injEq] at hr; rw [← hr]; exact h
  | cons a as ih =>
    intro s s' h hr
    unfold St.run at hr
    split at hr
    · next t ht => exact ih (fun a h => ha a (List.mem_cons_of_mem _ h)) (hung_next h (ha a (by simp)) ht) hr
    · simp at hr

/-- Two threads have taken the numbers 1 and 2, queued the marks in the other order, and the worker has processed them and gone to sleep. -/
def overlapped : St :=
  { put := [.mark 2, .mark 1], seen := [.mark 2, .mark 1], ran := [.mark 2, .mark 1], markSem := 1, lastMark := 1, markCount := 2, oldMark := 1, w := .wait
    c := upd (upd (upd (upd (upd (upd (fun _ => .idle) 1 (.marked 1 [])) 2 (.marked 2 [])) 2 (.queued 2 [])) 1 (.queued 1 [])) 1 (.waiting 1 [])) 2 (.waiting 2 [])
    owes := upd (upd (upd (upd (fun _ => false) 2 true) 1 true) 1 false) 2 false }

/-- **C57 fails** for calls that overlap: two threads take the numbers 1 and 2 and queue the marks in the other order.  Both marks are processed,
the worker blocks with nothing left to do, yet the second thread's call does not return, whatever happens from then on, unless somebody makes
another such call. -/
theorem c57_overlapping_calls : ∃ s, Reach (fun _ _ => True) s ∧ Asleep s ∧ (∀ t, s.owes t = false) ∧ .mark 2 ∈ s.seen ∧
    (∃ b, s.c 2 = .waiting 2 b) ∧
    ∀ as s', (∀ a ∈ as, ∀ t, a ≠ .client t .number) → s.run as = some s' → s'.c 2 ≠ .idle := by
  refine ⟨overlapped, reach_run (work_ 6 ++ [.client 1 .number, .client 2 .number, .client 2 .mark, .client 1 .mark, .client 1 .markNotify,
      .client 2 .markNotify] ++ work_ 24) .init (fun _ _ => trivial) rfl, ⟨rfl, rfl⟩, ?_, by decide, ⟨[], rfl⟩, ?_⟩
  · intro t
    simp only [overlapped, upd]
    repeat (first | rfl | split)
  · intro as s' ha hr h2
    have : Hung s' := by
      refine hung_run as ha ⟨⟨[], .inl rfl⟩, by decide, by intro n hn; simp [overlapped] at hn, ?_⟩ hr
      intro t n b
      by_cases h1 : t = 1
      · subst h1; simp [overlapped, upd]
      · by_cases h2 : t = 2
        · subst h2; simp [overlapped, upd]
        · simp [overlapped, upd, h1, h2]
    obtain ⟨⟨b, h⟩, _⟩ := this
    rw [h2] at h
    simp at h

/-! ## Waiting for plans to finish -/

/-- **C58 fails** on a race: the worker has just found that no plan is unfinished (there is none yet) when a plan is added; it then sees
that a plan has been loaded and reports completion.  `waitForPlanFinished` returns while the plan is still in the queue. -/
theorem c58_race : ∃ s s', Reach (fun _ _ => True) s ∧ .plan 1 ∈ s.queue ∧ s.next (.client 1 .waitFinished) = some s' := by
  refine ⟨{ queue := [.plan 1], put := [.plan 1], sem := 1, finSem := 1, w := .marks .step, planLoaded := true,
            c := upd (upd (fun _ => .idle) 1 .adding) 1 .idle, owes := upd (upd (fun _ => false) 1 true) 1 false }, _,
    reach_run (work_ 4 ++ [.client 1 (.addPlan 1), .client 1 .loaded, .client 1 .notify, .worker {}]) .init (fun _ _ => trivial) rfl, by decide, rfl⟩

/-- **C58 fails** for a second plan: completion is reported at the end of every cycle that finds no unfinished plan, not once.  After the first
plan has finished and one more event has been handled, the semaphore stays up, and waiting for the second plan returns at once. -/
theorem c58_second_plan : ∃ s s', Reach (fun _ _ => True) s ∧ .plan 1 ∈ s.seen ∧ .plan 2 ∈ s.queue ∧ s.w = .wait ∧ s.finSem = 1 ∧
    s.next (.client 1 .waitFinished) = some s' := by
  refine ⟨{ queue := [.plan 2], put := [.plan 1, .event 5, .plan 2], seen := [.plan 1, .event 5], ran := [.plan 1, .event 5], gone := [1], finSem := 1, w := .wait,
            planLoaded := true, c := upd (upd (upd (upd (fun _ => .idle) 1 .adding) 1 .idle) 1 .adding) 1 .idle,
            owes := upd (upd (upd (upd (upd (fun _ => false) 1 true) 1 false) 1 true) 1 false) 1 true }, _,
    reach_run (work_ 6 ++ [.client 1 (.addPlan 1), .client 1 .loaded, .client 1 .notify] ++ List.replicate 12 (.worker ⟨[1], false⟩) ++
      [.client 1 .waitFinished, .client 1 (.event 5), .client 1 .notify] ++ work_ 12 ++
      [.client 1 (.addPlan 2), .client 1 .loaded]) .init (fun _ _ => trivial) rfl, by decide, by decide, rfl, rfl, rfl⟩

/-- Plans are added only while the worker is blocked or about to start a cycle, and no report of completion is outstanding. -/
def CalmAdd (s : St) : Act → Prop
  | .client _ (.addPlan _) => s.w = .wait ∧ s.finSem = 0
  | _ => True

/-- After the first look at the queue. -/
def WPc.looked : WPc → Bool
  | .exec _ | .more | .scan _ | .tidy _ | .report _ _ | .marks _ => true
  | _ => false

def NoPlan (q : List Entry) : Prop := ∀ p, .plan p ∉ q

structure FInv (s : St) : Prop where
  looked : s.w.looked = true → NoPlan s.queue
  firstc : s.w.first = true → NoPlan s.queue
  fin : ∀ k, s.w = .report k true → s.plans = []
  sem : 0 < s.finSem → NoPlan s.queue ∧ s.plans = []

theorem finv_client {s s' : St} {t : Nat} {a : Call} (i : FInv s) (hP : CalmAdd s (.client t a)) (h : s.client t a = some s') : FInv s' := by
  have E : ∀ e, (∀ p, e ≠ .plan p) → NoPlan s.queue → NoPlan (s.queue ++ [e]) := by
    intro e he hq p hp
    rw [List.mem_append, List.mem_singleton] at hp
    rcases hp with hp | hp
    · exact hq p hp
    · exact he p hp.symm
  have K : ∀ {s' : St}, s'.w = s.w → s'.queue = s.queue → s'.plans = s.plans → s'.finSem = s.finSem → FInv s' := by
    intro s' h1 h2 h3 h4
    exact ⟨by rw [h1, h2]; exact i.looked, by rw [h1, h2]; exact i.firstc, by rw [h1, h3]; exact i.fin, by rw [h2, h3, h4]; exact i.sem⟩
  have Q : ∀ {s' : St} (e : Entry), (∀ p, e ≠ .plan p) → s'.w = s.w → s'.queue = s.queue ++ [e] → s'.plans = s.plans → s'.finSem = s.finSem → FInv s' := by
    intro s' e he h1 h2 h3 h4
    exact ⟨by rw [h1, h2]; exact fun h => E e he (i.looked h), by rw [h1, h2]; exact fun h => E e he (i.firstc h), by rw [h1, h3]; exact i.fin,
      by rw [h2, h3, h4]; exact fun h => ⟨E e he (i.sem h).1, (i.sem h).2⟩⟩
  unfold St.client at h
  split at h
  · injection h with h; subst h; exact Q _ (by simp) rfl rfl rfl rfl
  · injection h with h; subst h
    obtain ⟨h1, h2⟩ := hP
    refine ⟨?_, ?_, ?_, ?_⟩
    · intro h; simp only [St.enqueue, h1, WPc.looked] at h; simp at h
    · intro h; simp only [St.enqueue, h1, WPc.first] at h; simp at h
    · intro k h; simp only [St.enqueue, h1] at h; simp at h
    · intro h; simp only [St.enqueue, h2] at h; omega
  · injection h with h; subst h; exact K rfl rfl rfl rfl
  · injection h with h; subst h; exact K rfl rfl rfl rfl
  · injection h with h; subst h; exact K rfl rfl rfl rfl
  · injection h with h; subst h; exact K rfl rfl rfl rfl
  · injection h with h; subst h; exact K rfl rfl rfl rfl
  · injection h with h; subst h; exact K rfl rfl rfl rfl
  · injection h with h; subst h; exact Q _ (by simp) rfl rfl rfl rfl
  · injection h with h; subst h; exact K rfl rfl rfl rfl
  · split at h
    · injection h with h; subst h; exact K rfl rfl rfl rfl
    · simp at h
  · injection h with h; subst h; exact K rfl rfl rfl rfl
  · injection h with h; subst h; exact K rfl rfl rfl rfl
  · split at h
    · injection h with h; subst h
      exact ⟨i.looked, i.firstc, i.fin, fun h => i.sem (by dsimp only at h; omega)⟩
    · simp at h
  · simp at h

theorem pop_plan {s : St} {e : Entry} {q : List Entry} (hq : s.queue = e :: q) (hn : NoPlan s.queue) :
    NoPlan q ∧ (s.pop e q).1.plans = s.plans ∧ (s.pop e q).1.queue = q := by
  refine ⟨fun p hp => hn p (by rw [hq]; exact List.mem_cons_of_mem _ hp), ?_, ?_⟩
  · cases e with
    | mark n => rfl
    | event _ => rfl
    | plan p => exact absurd (by rw [hq]; simp) (hn p)
  · cases e <;> rfl

theorem finv_worker {s s' : St} {ch : Choice} (i : FInv s) (h : s.worker ch = some s') : FInv s' := by
  have nil : ∀ {l : List Entry}, l = [] → NoPlan l := by rintro l rfl p; simp
  unfold St.worker at h
  split at h
  · next k hw =>
    injection h with h; subst h
    refine ⟨by simp [WPc.looked], ?_, by simp, i.sem⟩
    cases k
    · exact fun _ => i.firstc (by rw [hw]; rfl)
    · simp [WPc.first]
  · next k hw =>
    split at h
    · next e q hq =>
      injection h with h; subst h
      have hw' : (s.pop e q).1.w = s.w := by cases e <;> rfl
      have hf : (s.pop e q).1.finSem = s.finSem := by cases e <;> rfl
      have hqq : (s.pop e q).1.queue = q := by cases e <;> rfl
      refine ⟨by rw [hw', hw]; simp [WPc.looked], ?_, by rw [hw', hw]; simp, ?_⟩
      · rw [hw', hqq]; exact fun h => (pop_plan hq (i.firstc h)).1
      · rw [hf, hqq]
        intro h
        obtain ⟨h1, h2⟩ := i.sem h
        obtain ⟨p1, p2, p3⟩ := pop_plan hq h1
        exact ⟨p1, by rw [p2]; exact h2⟩
    · next hq =>
      injection h with h; subst h
      exact ⟨fun _ => nil hq, fun _ => nil hq, by simp, i.sem⟩
  · next k hw =>
    injection h with h; subst h
    have hl := i.looked (by rw [hw]; rfl)
    refine ⟨fun _ => hl, fun _ => hl, ?_, fun h => ⟨hl, ?_⟩⟩
    · cases k <;> simp
    · have := (i.sem h).2
      simp [St.execStep, this]
  · next hw =>
    injection h with h; subst h
    have hl := i.looked (by rw [hw]; rfl)
    refine ⟨fun _ => hl, fun _ => hl, ?_, i.sem⟩
    dsimp only; split <;> simp
  · next b hw =>
    have hl := i.looked (by rw [hw]; rfl)
    split at h
    · next e q hq =>
      injection h with h; subst h
      obtain ⟨p1, p2, p3⟩ := pop_plan hq hl
      have hf : (s.pop e q).1.finSem = s.finSem := by cases e <;> rfl
      refine ⟨fun _ => by dsimp only; rw [p3]; exact p1, fun _ => by dsimp only; rw [p3]; exact p1, by simp, ?_⟩
      dsimp only
      rw [hf, p3, p2]
      exact fun h => ⟨p1, (i.sem h).2⟩
    · injection h with h; subst h
      refine ⟨fun _ => hl, fun _ => hl, ?_, i.sem⟩
      dsimp only; split <;> simp
  · next k hw =>
    injection h with h; subst h
    have hl := i.looked (by rw [hw]; rfl)
    refine ⟨fun _ => hl, fun _ => hl, ?_, i.sem⟩
    intro k' hk
    simp only [WPc.report.injEq, St.allFinished] at hk
    exact List.isEmpty_iff.1 hk.2
  · next k fin hw =>
    injection h with h; subst h
    have hl := i.looked (by rw [hw]; rfl)
    refine ⟨fun _ => hl, fun _ => hl, by simp, fun h => ⟨hl, ?_⟩⟩
    dsimp only at h ⊢
    split at h
    · next hc =>
      rw [Bool.and_eq_true] at hc
      rw [hc.2] at hw
      exact i.fin k hw
    · exact (i.sem h).2
  · next k hw =>
    injection h with h; subst h
    exact ⟨by simp [WPc.looked], by simp [WPc.first], by simp, i.sem⟩
  · next hw =>
    split at h
    · injection h with h; subst h
      exact ⟨by simp [WPc.looked], by simp [WPc.first], by simp, i.sem⟩
    · simp at h
  · next hw =>
    injection h with h; subst h
    refine ⟨?_, ?_, ?_, i.sem⟩
    · dsimp only; split <;> simp [WPc.looked]
    · dsimp only; split <;> simp [WPc.first]
    · dsimp only; split <;> simp
  · next hw =>
    split at h
    · injection h with h; subst h
      exact ⟨by simp [WPc.looked], by simp [WPc.first], by simp, i.sem⟩
    · injection h with h; subst h
      exact ⟨by simp [WPc.looked], by simp [WPc.first], by simp, i.sem⟩
  · simp at h

theorem finv_reach {s : St} (h : Reach CalmAdd s) : FInv s := by
  induction h with
  | init => exact ⟨by simp [WPc.looked], fun _ p => by simp, by simp, by simp⟩
  | @next s s' a _ hP hn ih =>
    cases a with
    | worker ch => exact finv_worker ih hn
    | client t a => exact finv_client ih hP hn

theorem client_gone {s s' : St} {t : Nat} {a : Call} (h : s.client t a = some s') : s'.gone = s.gone := by
  unfold St.client at h
  split at h
  case h_11 => split at h <;> simp at h; subst h; rfl
  case h_14 => split at h <;> simp at h; subst h; rfl
  case h_15 => simp at h
  all_goals (injection h with h; subst h; rfl)

theorem pop_kept {s : St} {e : Entry} {q : List Entry} (i : ∀ p, .plan p ∈ s.seen → p ∈ s.plans ∨ p ∈ s.gone) :
    ∀ p, .plan p ∈ (s.pop e q).1.seen → p ∈ (s.pop e q).1.plans ∨ p ∈ (s.pop e q).1.gone := by
  intro p hp
  rw [pop_seen, List.mem_append, List.mem_singleton] at hp
  rcases hp with hp | rfl
  · have := i p hp
    cases e with
    | plan p' => exact this.imp_left (fun h => by simp [St.pop, St.process, h])
    | mark _ => exact this
    | event _ => exact this
  · exact .inl (by simp [St.pop, St.process])

/-- A plan taken up is being run or has been finished by a step of the executive. -/
theorem Reach.kept {P : St → Act → Prop} {s : St} (h : Reach P s) : ∀ p, .plan p ∈ s.seen → p ∈ s.plans ∨ p ∈ s.gone := by
  induction h with
  | init => simp
  | @next s s' a _ _ hn ih =>
    cases a with
    | client t a =>
      have c := client_step hn
      rw [c.seen, c.plans, client_gone hn]; exact ih
    | worker ch =>
      simp only [St.next] at hn
      unfold St.worker at hn
      split at hn
      case h_2 =>
        split at hn
        · next e q _ => injection hn with hn; subst hn; exact pop_kept (e := e) (q := q) ih
        · injection hn with hn; subst hn; exact ih
      case h_3 =>
        injection hn with hn; subst hn
        intro p hp
        rcases ih p hp with h | h
        · by_cases hc : p ∈ ch.finished
          · exact .inr (by simp [St.execStep, h, hc])
          · exact .inl (by simp [St.execStep, h, hc])
        · exact .inr (by simp [St.execStep, h])
      case h_5 =>
        split at hn
        · next e q _ => injection hn with hn; subst hn; exact pop_kept (e := e) (q := q) ih
        · injection hn with hn; subst hn; exact ih
      case h_9 => split at hn <;> simp at hn; subst hn; exact ih
      case h_11 =>
        split at hn
        · injection hn with hn; subst hn; exact ih
        · injection hn with hn; subst hn; exact ih
      case h_12 => simp at hn
      all_goals (injection hn with hn; subst hn; exact ih)

/-- **C58.** If plans are added only while the worker is blocked and no report of completion is outstanding, then when
`waitForPlanFinished` returns every plan ever added has been finished by a step of the executive, and none is left. -/
theorem c58_not_early_partial (s s' : St) (h : Reach CalmAdd s) (t : Nat) (hn : s.next (.client t .waitFinished) = some s') :
    s'.plans = [] ∧ ∀ p, .plan p ∈ s'.put → p ∈ s'.gone := by
  have hf : 0 < s.finSem ∧ s'.put = s.put ∧ s'.plans = s.plans ∧ s'.gone = s.gone := by
    simp only [St.next] at hn
    cases hc : s.c t with
    | idle =>
      simp only [St.client, hc] at hn
      split at hn
      · next hp => injection hn with hn; subst hn; exact ⟨hp, rfl, rfl, rfl⟩
      · simp at hn
    | _ => simp [St.client, hc] at hn
  obtain ⟨h1, h2, h3, h4⟩ := hf
  obtain ⟨g1, g2⟩ := (finv_reach h).sem h1
  refine ⟨by rw [h3]; exact g2, fun p hp => ?_⟩
  rw [h2, ← h.winv.fifo, List.mem_append] at hp
  rw [h4]
  rcases h.kept p (hp.resolve_right (g1 p)) with h | h
  · rw [g2] at h; simp at h
  · exact h

/-- Nobody has waited for plans yet. -/
def NoWait (_ : St) : Act → Prop
  | .client _ .waitFinished => False
  | _ => True

/-- Before this cycle's report. -/
def WPc.before : WPc → Bool
  | .marks _ | .wait | .ended => false
  | _ => true

/-- Steps all of which obey `P`. -/
inductive Steps (P : St → Act → Prop) : St → St → Prop
  | refl (s : St) : Steps P s s
  | next {s s' s'' : St} {a : Act} : Steps P s s' → P s' a → s'.next a = some s'' → Steps P s s''

theorem Steps.reach {P : St → Act → Prop} {s s' : St} (h : Steps P s s') (hr : Reach (fun _ _ => True) s) : Reach (fun _ _ => True) s' := by
  induction h with
  | refl => exact hr
  | next _ _ hn ih => exact .next ih trivial hn

structure BInv (s : St) : Prop where
  adding : ∀ t, s.c t = .adding → s.owes t = true
  rep : ∀ k fin, s.w = .report k fin → fin = s.plans.isEmpty

/-- A client step leaves `adding` and `owes` in step. -/
theorem client_adding {s s' : St} {t : Nat} {a : Call} (h : s.client t a = some s') (i : ∀ u, s.c u = .adding → s.owes u = true) :
    ∀ u, s'.c u = .adding → s'.owes u = true := by
  have A : ∀ {x : CPc}, x ≠ .adding → ∀ u, upd s.c t x u = .adding → u ≠ t ∧ s.c u = .adding := by
    intro x hx u hu
    by_cases e : u = t
    · subst e; rw [upd_same] at hu; exact absurd hu hx
    · rw [upd_other _ _ e] at hu; exact ⟨e, hu⟩
  have O : ∀ u, s.owes u = true → upd s.owes t true u = true := by
    intro u hu
    by_cases e : u = t
    · subst e; simp
    · rw [upd_other _ _ e]; exact hu
  unfold St.client at h
  split at h
  · injection h with h; subst h; exact fun u hu => O u (i u hu)
  · injection h with h; subst h
    intro u hu
    dsimp only [St.enqueue] at hu ⊢
    by_cases e : u = t
    · subst e; simp
    · rw [upd_other _ _ e] at hu ⊢; exact i u hu
  · injection h with h; subst h
    exact fun u hu => i u (A (by simp) u hu).2
  · next hc =>
    injection h with h; subst h
    intro u hu
    dsimp only [St.notify] at hu ⊢
    rw [upd_other]
    · exact i u hu
    · rintro rfl; rw [hc] at hu; simp at hu
  · injection h with h; subst h; exact i
  · injection h with h; subst h; exact fun u hu => O u (i u hu)
  · injection h with h; subst h; exact fun u hu => O u (i u hu)
  · injection h with h; subst h
    exact fun u hu => i u (A (by simp) u hu).2
  · injection h with h; subst h
    exact fun u hu => O u (i u (A (by simp) u hu).2)
  · injection h with h; subst h
    intro u hu
    obtain ⟨h1, h2⟩ := A (by simp) u hu
    dsimp only [St.notify]
    rw [upd_other _ _ h1]; exact i u h2
  · split at h
    · injection h with h; subst h
      exact fun u hu => i u (A (by simp) u hu).2
    · simp at h
  · injection h with h; subst h
    exact fun u hu => i u (A (by simp) u hu).2
  · injection h with h; subst h
    exact fun u hu => i u (A (by split <;> simp) u hu).2
  · split at h
    · injection h with h; subst h; exact i
    · simp at h
  · simp at h

theorem worker_rep {s s' : St} {ch : Choice} (h : s.worker ch = some s') : ∀ k fin, s'.w = .report k fin → fin = s'.plans.isEmpty := by
  unfold St.worker at h
  split at h
  · injection h with h; subst h; simp
  · next k hw =>
    split at h
    · next e q _ =>
      injection h with h; subst h
      rw [show (s.pop e q).1.w = s.w by cases e <;> rfl, hw]; simp
    · injection h with h; subst h; simp
  · next k _ => injection h with h; subst h; cases k <;> simp
  · injection h with h; subst h; dsimp only; split <;> simp
  · split at h
    · injection h with h; subst h; simp
    · injection h with h; subst h; dsimp only; split <;> simp
  · injection h with h; subst h
    intro k fin hk
    simp only [WPc.report.injEq, St.allFinished] at hk
    exact hk.2.symm
  · injection h with h; subst h; simp
  · injection h with h; subst h; simp
  · split at h
    · injection h with h; subst h; simp
    · simp at h
  · injection h with h; subst h; dsimp only; split <;> simp
  · split at h
    · injection h with h; subst h; simp
    · injection h with h; subst h; simp
  · simp at h

theorem Reach.binv {P : St → Act → Prop} {s : St} (h : Reach P s) : BInv s := by
  induction h with
  | init => exact ⟨by simp, by simp⟩
  | @next s s' a _ _ hn ih =>
    cases a with
    | worker ch =>
      obtain ⟨_, _, h3, h4, _⟩ := worker_frame hn
      exact ⟨by rw [h3, h4]; exact ih.adding, worker_rep hn⟩
    | client t a =>
      have c := client_step hn
      exact ⟨client_adding hn ih.adding, by rw [c.w, c.plans]; exact ih.rep⟩

/-- Completion has been reported, or will be, or there is no occasion. -/
def Due (s : St) : Prop :=
  s.planLoaded = true → 0 < s.finSem ∨ Pend s ∨ s.suspended = true ∨ s.plans ≠ [] ∨ s.w.before = true ∨ s.w = .ended

theorem due_client {s s' : St} {t : Nat} {a : Call} (b : BInv s) (i : Due s) (hP : NoWait s (.client t a)) (h : s.client t a = some s') : Due s' := by
  intro hl
  have c := client_step h
  have hf : s'.finSem = s.finSem ∧ (s'.planLoaded = s.planLoaded ∨ Pend s') := by
    clear c hl
    unfold St.client at h
    split at h
    case h_3 hc =>
      injection h with h; subst h
      exact ⟨rfl, .inr (.inr ⟨t, b.adding t hc⟩)⟩
    case h_14 => exact absurd hP id
    case h_11 =>
      split at h
      · injection h with h; subst h; exact ⟨rfl, .inl rfl⟩
      · simp at h
    case h_15 => simp at h
    all_goals (injection h with h; subst h; exact ⟨rfl, .inl rfl⟩)
  rcases hf.2 with h2 | h2
  · rcases i (by rw [← h2]; exact hl) with h | h | h | h | h | h
    · exact .inl (by rw [hf.1]; exact h)
    · exact .inr (.inl (c.pend h))
    · rcases c.susp h with h | h
      · exact .inr (.inr (.inl h))
      · exact .inr (.inl h)
    · exact .inr (.inr (.inr (.inl (by rw [c.plans]; exact h))))
    · exact .inr (.inr (.inr (.inr (.inl (by rw [c.w]; exact h)))))
    · exact .inr (.inr (.inr (.inr (.inr (by rw [c.w]; exact h)))))
  · exact .inr (.inl h2)

theorem due_worker {s s' : St} {ch : Choice} (b : BInv s) (i : Due s) (h : s.worker ch = some s') : Due s' := by
  intro hl
  have bef : s'.w.before = true → Due s' := fun h _ => .inr (.inr (.inr (.inr (.inl h))))
  unfold St.worker at h
  split at h
  · injection h with h; subst h; exact bef rfl hl
  · next k hw =>
    split at h
    · next e q _ =>
      injection h with h; subst h
      refine bef ?_ hl
      rw [show (s.pop e q).1.w = s.w by cases e <;> rfl, hw]; rfl
    · injection h with h; subst h; exact bef rfl hl
  · next k _ => injection h with h; subst h; exact bef (by cases k <;> rfl) hl
  · injection h with h; subst h; exact bef (by dsimp only; split <;> rfl) hl
  · split at h
    · injection h with h; subst h; exact bef rfl hl
    · injection h with h; subst h; exact bef (by dsimp only; split <;> rfl) hl
  · injection h with h; subst h; exact bef rfl hl
  · next k fin hw =>
    injection h with h; subst h
    have := b.rep k fin hw
    by_cases hp : s.plans = []
    · left
      dsimp only at hl ⊢
      rw [hl, this, hp]; simp
    · exact .inr (.inr (.inr (.inl hp)))
  · next k hw =>
    injection h with h; subst h
    rcases i hl with h | h | h | h | h | h
    · exact .inl h
    · exact .inr (.inl h)
    · exact .inr (.inr (.inl h))
    · exact .inr (.inr (.inr (.inl h)))
    · rw [hw] at h; simp [WPc.before] at h
    · rw [hw] at h; simp at h
  · split at h
    · injection h with h; subst h; exact bef rfl hl
    · simp at h
  · injection h with h; subst h
    dsimp only at hl ⊢
    by_cases hc : (!s.stop && s.suspended) = true
    · simp only [Bool.and_eq_true] at hc
      exact .inr (.inr (.inl hc.2))
    · rw [if_neg hc]; exact .inr (.inr (.inr (.inr (.inl rfl))))
  · split at h
    · injection h with h; subst h; exact .inr (.inr (.inr (.inr (.inr rfl))))
    · injection h with h; subst h; exact bef rfl hl
  · simp at h

/-- **C58.** The end of the plans is announced: after a plan has been added, and as long as nobody has waited for it, whatever else
happens, once the worker is blocked with all plans finished (the application not suspended, the plan's `addPlan` returned and every client has called
`notifyExec`), `waitForPlanFinished` returns at once. -/
theorem c58_announced (s₀ s₁ s : St) (h : Reach (fun _ _ => True) s₀) (t p : Nat) (ha : s₀.next (.client t (.addPlan p)) = some s₁)
    (hs : Steps NoWait s₁ s) (hb : Asleep s) (hsu : s.suspended = false) (ho : ∀ t, s.owes t = false) (hf : s.plans = []) (u : Nat) (hi : s.c u = .idle) :
    ∃ s', s.next (.client u .waitFinished) = some s' := by
  have h1 : Reach (fun _ _ => True) s₁ := .next h trivial ha
  have hp : Pend s₁ := by
    simp only [St.next] at ha
    cases hc : s₀.c t with
    | idle => simp only [St.client, hc, Option.some.injEq] at ha; subst ha; exact .inr ⟨t, by simp [St.enqueue]⟩
    | _ => simp [St.client, hc] at ha
  have hL : s₁.c t = .adding := by
    simp only [St.next] at ha
    cases hc : s₀.c t with
    | idle => simp only [St.client, hc, Option.some.injEq] at ha; subst ha; simp
    | _ => simp [St.client, hc] at ha
  have key : Due s ∧ (s.planLoaded = true ∨ s.c t = .adding) := by
    clear hb hsu ho hf hi
    induction hs with
    | refl => exact ⟨fun _ => .inr (.inl hp), .inr hL⟩
    | @next s s' a hr hP hn ih =>
      have hb := (hr.reach h1).binv
      cases a with
      | worker ch =>
        obtain ⟨_, _, h3, _, h5, _⟩ := worker_frame hn
        exact ⟨due_worker hb ih.1 hn, by rw [h3, h5]; exact ih.2⟩
      | client u a =>
        refine ⟨due_client hb ih.1 hP hn, ?_⟩
        have ih := ih.2
        clear hP
        simp only [St.next] at hn
        unfold St.client at hn
        split at hn
        case h_3 => injection hn with hn; subst hn; exact .inl rfl
        case h_11 hc =>
          split at hn
          · injection hn with hn; subst hn
            refine ih.imp id fun h => ?_
            dsimp only; rw [upd_other]
            · exact h
            · rintro rfl; rw [hc] at h; simp at h
          · simp at hn
        case h_14 =>
          split at hn
          · injection hn with hn; subst hn; exact ih
          · simp at hn
        case h_15 => simp at hn
        all_goals
          injection hn with hn; subst hn
          refine ih.imp id fun h => ?_
          first
            | exact h
            | (dsimp only [St.enqueue, St.notify]
               rw [upd_other]
               · exact h
               · rintro rfl; simp_all)
  have hw : s.planLoaded = true := by
    rcases key.2 with h' | h'
    · exact h'
    · have := (hs.reach h1).binv.adding t h'
      rw [ho t] at this; simp at this
  have hfin : 0 < s.finSem := by
    rcases key.1 hw with h | h | h | h | h | h
    · exact h
    · rcases h with h | ⟨v, h⟩
      · have := hb.2; omega
      · rw [ho v] at h; simp at h
    · rw [hsu] at h; simp at h
    · exact absurd hf h
    · rw [hb.1] at h; simp [WPc.before] at h
    · rw [hb.1] at h; simp at h
  exact ⟨{ s with finSem := s.finSem - 1 }, by simp only [St.next, St.client, hi, if_pos hfin]⟩

theorem reach_run_mem {P : St → Act → Prop} (as : List Act) : ∀ {s s' : St}, Reach P s → (∀ a ∈ as, ∀ s, P s a) → s.run as = some s' → Reach P s' := by
  induction as with
  | nil => intro s s' h _ hr; simp only [St.run, Option.some.injEq] at hr; rw [← hr]; exact h
  | cons a as ih =>
    intro s s' h hP hr
    unfold St.run at hr
    split at hr
    · next t ht => exact ih (.next h (hP a (by simp) _) ht) (fun a ha => hP a (by simp [ha])) hr
    · simp at hr

/-- The hypotheses of `c58_not_early_partial` are met by the ordinary life of a plan: added to an idle executive, run, finished, reported. -/
example : ∃ s s', Reach CalmAdd s ∧ .plan 1 ∈ s.put ∧ s.next (.client 1 .waitFinished) = some s' := by
  have h1 : Reach CalmAdd { w := .wait } :=
    reach_run_mem (work_ 6) .init (by intro a ha; rw [List.eq_of_mem_replicate ha]; exact fun _ => trivial) rfl
  have h2 := Reach.next (a := .client 1 (.addPlan 1)) h1 ⟨rfl, rfl⟩ rfl
  have h3 := reach_run_mem ([.client 1 .loaded, .client 1 .notify] ++ List.replicate 12 (.worker ⟨[1], false⟩)) h2 (by
    intro a ha
    rw [List.mem_append] at ha
    rcases ha with ha | ha
    · simp only [List.mem_cons, List.not_mem_nil, or_false] at ha
      rcases ha with rfl | rfl <;> exact fun _ => trivial
    · rw [List.eq_of_mem_replicate ha]; exact fun _ => trivial) rfl
  exact ⟨_, _, h3, by decide, rfl⟩

theorem steps_run {P : St → Act → Prop} (as : List Act) : ∀ {s₀ s s' : St}, Steps P s₀ s → (∀ a ∈ as, ∀ s, P s a) → s.run as = some s' → Steps P s₀ s' := by
  induction as with
  | nil => intro s₀ s s' h _ hr; simp only [St.run, Option.some.injEq] at hr; rw [← hr]; exact h
  | cons a as ih =>
    intro s₀ s s' h hP hr
    unfold St.run at hr
    split at hr
    · next t ht => exact ih (.next h (hP a (by simp) _) ht) (fun a ha => hP a (by simp [ha])) hr
    · simp at hr

/-- The hypotheses of `c58_announced` are met, by a plan added while the worker is in the middle of its first cycle. -/
example : ∃ s₀ s₁ s, Reach (fun _ _ => True) s₀ ∧ s₀.w ≠ .wait ∧ s₀.next (.client 1 (.addPlan 4)) = some s₁ ∧ Steps NoWait s₁ s ∧ Asleep s ∧
    s.suspended = false ∧ (∀ t, s.owes t = false) ∧ s.plans = [] ∧ s.c 2 = .idle := by
  refine ⟨{ w := .exec .step }, _, { put := [.plan 4], seen := [.plan 4], ran := [.plan 4], gone := [4], finSem := 1, w := .wait, planLoaded := true,
                                     c := upd (upd (fun _ => .idle) 1 .adding) 1 .idle, owes := upd (upd (fun _ => false) 1 true) 1 false },
    reach_run (work_ 2) .init (fun _ _ => trivial) rfl, by decide, rfl,
    steps_run (List.replicate 3 (.worker {}) ++ [.client 1 .loaded] ++ work_ 1 ++ [.client 1 .notify] ++ List.replicate 12 (.worker ⟨[4], false⟩))
      (.refl _) ?_ rfl, ⟨rfl, rfl⟩, rfl, ?_, rfl, rfl⟩
  · intro a ha
    simp only [List.mem_append, List.mem_cons, List.not_mem_nil, or_false] at ha
    rcases ha with (((ha | rfl) | ha) | rfl) | ha
    · rw [List.eq_of_mem_replicate ha]; exact fun _ => trivial
    · exact fun _ => trivial
    · rw [List.eq_of_mem_replicate ha]; exact fun _ => trivial
    · exact fun _ => trivial
    · rw [List.eq_of_mem_replicate ha]; exact fun _ => trivial
  · intro t
    simp only [upd]
    repeat (first | rfl | split)

/-- The hypotheses of `c57_first_call_partial` are met, with something queued before. -/
example : ∃ s s', Reach (fun _ _ => True) s ∧ s.c 1 = .checking 1 [.event 3] ∧ s.next (.client 1 .markCheck) = some s' ∧ s'.c 1 = .idle :=
  by
  refine ⟨_, _, reach_run ([.client 1 (.event 3)] ++ callWait 1 ++ work_ 16 ++ callPass 1) .init (fun _ _ => trivial) rfl, rfl, rfl, rfl⟩

/-! ## Notifying never blocks: not so in opportunistic mode -/

/-- A history in opportunistic mode. -/
inductive Opp.Run : Opp → Opp → Prop
  | refl (s : Opp) : Run s s
  | next {s s' s'' : Opp} {t : Nat} {a : OppCall} {r : Bool} : Run s s' → s'.next t a = some (s'', r) → Run s s''

/-- **C59 fails** in opportunistic mode: a call of `notifyExec` that finds the executive free (`try_lock` succeeds) never returns.  It holds the
exec mutex and tries to lock it again; from then on, whatever any thread does, that thread can do nothing, and no thread, the worker included, ever
gets to run the executive. -/
theorem c59_opportunistic_deadlock (s s' : Opp) (t : Nat) (hfree : s.owner = none) (hn : s.next t .notify = some (s', false)) (s'' : Opp)
    (hr : Opp.Run s' s'') : (∀ a, s''.next t a = none) ∧ ∀ u, s''.next u .begin = none ∧ s''.next u .lock = none := by
  have h0 : s'.owner = some t ∧ s'.relock t = true := by
    simp only [Opp.next, hfree] at hn
    split at hn
    · simp at hn
    · simp only [if_true, Option.some.injEq, Prod.mk.injEq] at hn
      rw [← hn.1]; exact ⟨rfl, by simp⟩
  have h1 : s''.owner = some t ∧ s''.relock t = true := by
    clear hn
    induction hr with
    | refl => exact h0
    | @next a b u c r _ hn ih =>
      obtain ⟨i1, i2⟩ := ih
      cases c with
      | notify =>
        simp only [Opp.next, i1] at hn
        split at hn
        · simp at hn
        · simp only [reduceCtorEq, if_false, Option.some.injEq, Prod.mk.injEq] at hn
          rw [← hn.1]; exact ⟨i1, i2⟩
      | lock => simp [Opp.next, i1] at hn
      | begin => simp [Opp.next, i1] at hn
      | release =>
        simp only [Opp.next, i1] at hn
        split at hn
        · next hc =>
          have : t = u := by simpa using hc.2
          subst this
          exact absurd i2 hc.1
        · simp at hn
  refine ⟨fun a => ?_, fun u => ⟨by simp [Opp.next, h1.1], by simp [Opp.next, h1.1]⟩⟩
  cases a <;> simp [Opp.next, h1.1, h1.2]

/-- Such a call exists: the very first `notifyExec` before the worker holds the mutex. -/
example : ∃ s', ({} : Opp).next 3 .notify = some (s', false) := ⟨_, rfl⟩

/-- **C59.** In background mode `notifyExec` never waits: whatever the other threads and the worker are doing (the executive may be in the
middle of a step), a client outside any other call can do it at once; afterwards it owes nothing, nothing in the queue is touched, and the worker is not
blocked. -/
theorem c59_background_partial (s : St) (t : Nat) (hi : s.c t = .idle) :
    ∃ s', s.next (.client t .notify) = some s' ∧ s'.c t = .idle ∧ s'.owes t = false ∧ ¬ Asleep s' ∧ s'.queue = s.queue ∧ s'.w = s.w :=
  ⟨s.notify t, by simp only [St.next, St.client, hi], hi, by simp [St.notify], fun h => by have := h.2; simp [St.notify] at this, rfl, rfl⟩

/-- The same for queueing: an adapter handing in a value or an acknowledgement never waits for the executive. -/
theorem c59_enqueue_partial (s : St) (t id : Nat) (hi : s.c t = .idle) :
    ∃ s', s.next (.client t (.event id)) = some s' ∧ s'.c t = .idle ∧ s'.queue = s.queue ++ [.event id] ∧ s'.w = s.w :=
  ⟨s.enqueue t (.event id), by simp only [St.next, St.client, hi], hi, rfl, rfl⟩

end Verif.App
