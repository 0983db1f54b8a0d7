import Verif.Ipc.RendezvousSpec
set_option autoImplicit false
set_option linter.unusedSectionVars false
/-!
C100: a lookup through IPC.
-/
namespace Verif.Ipc.Rendezvous
variable {Q V : Type} [DecidableEq Q]

theorem snocInd {α : Type} {P : List α → Prop} (nil : P []) (snoc : ∀ (l : List α) (a : α), P l → P (l ++ [a])) (l : List α) : P l := by
  have h : ∀ r : List α, P r.reverse := by
    intro r
    induction r with
    | nil => exact nil
    | cons a r ih => rw [List.reverse_cons]; exact snoc _ a ih
  simpa using h l.reverse

theorem run_append (s : St Q V) (a b : List (Ev Q V)) : s.run (a ++ b) = (s.run a).bind (fun t => t.run b) := by
  induction a generalizing s with
  | nil => rfl
  | cons e r ih =>
    simp only [List.cons_append, St.run]
    cases s.step e with
    | none => rfl
    | some t => exact ih t

theorem Polite.init {evs : List (Ev Q V)} {e : Ev Q V} (h : Polite (evs ++ [e])) : Polite evs := by
  refine ⟨fun pre post n v he => h.noted pre (post ++ [e]) n v (by simp [he]), ?_, fun q v hq hs => h.quiet q v (by simp [hq]) (by simp [hs])⟩
  have := h.once
  rw [List.filterMap_append, List.nodup_append] at this
  exact this.1

theorem mem_answers {evs : List (Ev Q V)} {n : Nat} {v : V} (h : .reply n v ∈ evs) : n ∈ evs.filterMap Ev.answers :=
  List.mem_filterMap.2 ⟨_, h, rfl⟩

theorem Polite.fresh {evs : List (Ev Q V)} {n : Nat} {v w : V} (h : Polite (evs ++ [.reply n v])) : .reply n w ∉ evs := by
  intro hm
  have := h.once
  rw [List.filterMap_append, List.nodup_append] at this
  exact this.2.2 n (mem_answers hm) n (by simp [Ev.answers]) rfl

theorem Polite.stored {evs : List (Ev Q V)} {n : Nat} {v : V} (h : Polite (evs ++ [.reply n v])) : .store n ∈ evs := h.noted evs [] n v rfl

theorem Polite.stored' {evs : List (Ev Q V)} {n : Nat} {v : V} (h : Polite evs) (hm : .reply n v ∈ evs) : .store n ∈ evs := by
  obtain ⟨a, b, e⟩ := List.append_of_mem hm
  rw [e]; exact List.mem_append_left _ (h.noted a b n v e)

/-- The state of the question being asked. -/
def Here (evs : List (Ev Q V)) (s : St Q V) : Prop :=
  match s.exec with
  | .idle => s.sent.length = s.results.length ∧ s.pendingSerial = 0 ∧ s.pendingState = none ∧ s.sem = 0 ∧ s.matched = none
  | .asking q => s.sent.length = s.results.length ∧ s.pendingSerial = 0 ∧ s.pendingState = some q ∧ s.sem = 0 ∧ s.matched = none
  | .asked q n => s.sent.length = s.results.length + 1 ∧ s.sent[s.results.length]? = some (n, q) ∧ s.pendingSerial = 0 ∧ s.pendingState = some q ∧ s.sem = 0 ∧
      s.matched = none ∧ .store n ∉ evs ∧ 1 ≤ n ∧ n < s.next
  | .waiting q => s.sent.length = s.results.length + 1 ∧ ∃ n, s.sent[s.results.length]? = some (n, q) ∧ s.pendingSerial = n ∧ s.pendingState = some q ∧
      (((∀ v, .reply n v ∉ evs) ∧ s.sem = 0 ∧ s.matched = none) ∨
       (∃ v, .reply n v ∈ evs ∧ s.matched = some v ∧ s.sem = 0) ∨
       (∃ v, .reply n v ∈ evs ∧ s.matched = none ∧ s.sem = 1 ∧ s.pendingResult = some v))
  | .woken q => s.sent.length = s.results.length + 1 ∧ ∃ n v, s.sent[s.results.length]? = some (n, q) ∧ s.pendingSerial = n ∧ s.pendingState = some q ∧
      .reply n v ∈ evs ∧ s.matched = none ∧ s.sem = 0 ∧ s.pendingResult = some v

structure Inv (evs : List (Ev Q V)) (s : St Q V) : Prop where
  here : Here evs s
  started : ∀ q, s.pendingState = some q → .start q ∈ evs
  next : 1 ≤ s.next
  stored : ∀ n, .store n ∈ evs → 1 ≤ n ∧ n < s.next
  results : ∀ (i : Nat) (q : Q) (r : Option V), s.results[i]? = some (q, r) → ∃ n v, s.sent[i]? = some (n, q) ∧ r = some v ∧ .reply n v ∈ evs

theorem Inv.mono_results {evs : List (Ev Q V)} {e : Ev Q V} {s : St Q V} (h : Inv evs s) :
    ∀ (i : Nat) (q : Q) (r : Option V), s.results[i]? = some (q, r) → ∃ n v, s.sent[i]? = some (n, q) ∧ r = some v ∧ .reply n v ∈ evs ++ [e] := by
  intro i q r hi
  obtain ⟨n, v, h1, h2, h3⟩ := h.results i q r hi
  exact ⟨n, v, h1, h2, by simp [h3]⟩

theorem inv_step {evs : List (Ev Q V)} {e : Ev Q V} {s t : St Q V} (i : Inv evs s) (hp : Polite (evs ++ [e])) (hs : s.step e = some t) : Inv (evs ++ [e]) t := by
  have hstart : ∀ q, s.pendingState = some q → Ev.start q ∈ evs ++ [e] := fun q h => by simp [i.started q h]
  have hh := i.here
  cases e with
  | start q =>
    simp only [St.step] at hs
    split at hs
    · rename_i hx
      simp only [Option.some.injEq] at hs; subst hs
      simp only [Here, hx] at hh
      refine ⟨?_, fun q' h => by simp at h; simp [h], i.next, fun n hn => i.stored n (by simpa using hn), i.mono_results⟩
      exact ⟨hh.1, hh.2.1, rfl, hh.2.2.2.1, hh.2.2.2.2⟩
    · cases hs
  | send =>
    simp only [St.step] at hs
    split at hs
    · rename_i q hx
      simp only [Option.some.injEq] at hs; subst hs
      simp only [Here, hx] at hh
      obtain ⟨h1, h2, h3, h4, h5⟩ := hh
      refine ⟨?_, hstart, by simp, fun n hn => ?_, fun j q' r hj => ?_⟩
      · refine ⟨by simp [h1], by simp [← h1], h2, h3, h4, h5, fun hm => ?_, i.next, by simp⟩
        have := (i.stored s.next (by simpa using hm)).2
        omega
      · have := i.stored n (by simpa using hn)
        exact ⟨this.1, by show n < s.next + 1; omega⟩
      · obtain ⟨n, v, g1, g2, g3⟩ := i.results j q' r hj
        refine ⟨n, v, ?_, g2, by simp [g3]⟩
        have hlt : j < s.sent.length := by
          have := List.getElem?_eq_some_iff.1 g1
          exact this.1
        show (s.sent ++ [(s.next, q)])[j]? = _
        rw [List.getElem?_append_left hlt]; exact g1
    · cases hs
  | store m =>
    simp only [St.step] at hs
    split at hs
    · rename_i q n hx
      by_cases hm : m = n
      · subst hm
        simp only [if_true, Option.some.injEq] at hs; subst hs
        simp only [Here, hx] at hh
        obtain ⟨h1, h2, h3, h4, h5, h6, h7, h8, h9⟩ := hh
        refine ⟨?_, hstart, i.next, fun k hk => ?_, i.mono_results⟩
        · refine ⟨h1, m, h2, rfl, h4, .inl ⟨fun v hv => ?_, h5, h6⟩⟩
          have hv' : Ev.reply m v ∈ evs := by simpa using hv
          exact h7 (hp.init.stored' hv')
        · simp only [List.mem_append, List.mem_singleton, Ev.store.injEq] at hk
          rcases hk with hk | rfl
          · exact i.stored k hk
          · exact ⟨h8, h9⟩
      · simp [hm] at hs
    · cases hs
  | wake =>
    simp only [St.step] at hs
    split at hs
    · rename_i q k hx hk
      simp only [Option.some.injEq] at hs; subst hs
      simp only [Here, hx] at hh
      obtain ⟨h1, n, h2, h3, h4, h5⟩ := hh
      refine ⟨?_, hstart, i.next, fun k hk => i.stored k (by simpa using hk), i.mono_results⟩
      rcases h5 with ⟨_, h5, _⟩ | ⟨v, _, _, h5⟩ | ⟨v, h5, h6, h7, h8⟩
      · omega
      · omega
      · exact ⟨h1, n, v, h2, h3, h4, by simp [h5], h6, by show k = 0; omega, h8⟩
    · cases hs
  | take =>
    simp only [St.step] at hs
    split at hs
    · rename_i q hx
      simp only [Option.some.injEq] at hs; subst hs
      simp only [Here, hx] at hh
      obtain ⟨h1, n, v, h2, h3, h4, h5, h6, h7, h8⟩ := hh
      refine ⟨⟨by simp [h1], rfl, rfl, h7, h6⟩, fun q h => by simp at h, i.next, fun k hk => i.stored k (by simpa using hk), fun j q' r hj => ?_⟩
      have hj' : (s.results ++ [(q, s.pendingResult)])[j]? = some (q', r) := hj
      by_cases hlt : j < s.results.length
      · rw [List.getElem?_append_left hlt] at hj'
        exact i.mono_results j q' r hj'
      · have hjl : j = s.results.length := by
          have := (List.getElem?_eq_some_iff.1 hj').1
          simp at this; omega
        subst hjl
        simp at hj'
        obtain ⟨rfl, rfl⟩ := hj'
        exact ⟨n, v, h2, h8, by simp [h5]⟩
    · cases hs
  | other =>
    simp only [St.step, Option.some.injEq] at hs; subst hs
    refine ⟨?_, hstart, by simp, fun n hn => ?_, i.mono_results⟩
    · unfold Here at hh ⊢
      revert hh
      show (match s.exec with | .idle => _ | .asking q => _ | .asked q n => _ | .waiting q => _ | .woken q => _) → (match s.exec with | .idle => _ | .asking q => _ | .asked q n => _ | .waiting q => _ | .woken q => _)
      cases s.exec with
      | idle => exact id
      | asking q => exact id
      | asked q n => rintro ⟨h1, h2, h3, h4, h5, h6, h7, h8, h9⟩; exact ⟨h1, h2, h3, h4, h5, h6, by simpa using h7, h8, by show n < s.next + 1; omega⟩
      | waiting q => rintro ⟨h1, n, h2, h3, h4, h5⟩; refine ⟨h1, n, h2, h3, h4, ?_⟩; simpa using h5
      | woken q => rintro ⟨h1, n, v, h2, h3, h4, h5, h6⟩; exact ⟨h1, n, v, h2, h3, h4, by simp [h5], h6⟩
    · have := i.stored n (by simpa using hn)
      exact ⟨this.1, by show n < s.next + 1; omega⟩
  | reply m v =>
    have hst := i.stored m hp.stored
    simp only [St.step] at hs
    cases hmt : s.matched with
    | some w => simp [hmt] at hs
    | none =>
      simp only [hmt] at hs
      have hstored : ∀ n, Ev.store n ∈ evs ++ [Ev.reply m v] → 1 ≤ n ∧ n < s.next := fun k hk => i.stored k (by simpa using hk)
      by_cases hm : m = s.pendingSerial
      · simp only [hm, if_true, Option.some.injEq] at hs; subst hs
        refine ⟨?_, hstart, i.next, hstored, i.mono_results⟩
        unfold Here at hh ⊢
        revert hh
        show (match s.exec with | .idle => _ | .asking q => _ | .asked q n => _ | .waiting q => _ | .woken q => _) → (match s.exec with | .idle => _ | .asking q => _ | .asked q n => _ | .waiting q => _ | .woken q => _)
        cases s.exec with
        | idle => rintro ⟨_, h, _⟩; omega
        | asking q => rintro ⟨_, h, _⟩; omega
        | asked q n => rintro ⟨_, _, h, _⟩; omega
        | waiting q =>
          rintro ⟨h1, n, h2, h3, h4, h5⟩
          refine ⟨h1, n, h2, h3, h4, .inr (.inl ⟨v, ?_, rfl, ?_⟩)⟩
          · simp [hm, h3]
          · rcases h5 with ⟨_, h5, _⟩ | ⟨w, _, _, h5⟩ | ⟨w, h5, _⟩
            · exact h5
            · exact h5
            · exact absurd (hm ▸ h3 ▸ h5) (hp.fresh (w := w))
        | woken q =>
          rintro ⟨h1, n, w, h2, h3, h4, h5, _⟩
          exact absurd (hm ▸ h3 ▸ h5) (hp.fresh (w := w))
      · simp only [hm, if_false, Option.some.injEq] at hs; subst hs
        refine ⟨?_, hstart, i.next, hstored, i.mono_results⟩
        unfold Here at hh ⊢
        revert hh
        cases s.exec with
        | idle => exact id
        | asking q => exact id
        | asked q n => rintro ⟨h1, h2, h3, h4, h5, h6, h7, h8⟩; exact ⟨h1, h2, h3, h4, h5, h6, by simpa using h7, h8⟩
        | waiting q =>
          rintro ⟨h1, n, h2, h3, h4, h5⟩
          refine ⟨h1, n, h2, h3, h4, ?_⟩
          rcases h5 with ⟨g1, g2, g3⟩ | ⟨w, g1, g2⟩ | ⟨w, g1, g2⟩
          · refine .inl ⟨fun w hw => ?_, g2, g3⟩
            simp only [List.mem_append, List.mem_singleton, Ev.reply.injEq] at hw
            rcases hw with hw | ⟨hw, _⟩
            · exact g1 w hw
            · exact hm (hw.symm.trans h3.symm)
          · exact .inr (.inl ⟨w, by simp [g1], g2⟩)
          · exact .inr (.inr ⟨w, by simp [g1], g2⟩)
        | woken q => rintro ⟨h1, n, v, h2, h3, h4, h5, h6⟩; exact ⟨h1, n, v, h2, h3, h4, by simp [h5], h6⟩
  | write =>
    simp only [St.step] at hs
    split at hs
    · rename_i v hmt hlk
      simp only [Option.some.injEq] at hs; subst hs
      refine ⟨?_, hstart, i.next, fun k hk => i.stored k (by simpa using hk), i.mono_results⟩
      unfold Here at hh ⊢
      revert hh
      show (match s.exec with | .idle => _ | .asking q => _ | .asked q n => _ | .waiting q => _ | .woken q => _) → (match s.exec with | .idle => _ | .asking q => _ | .asked q n => _ | .waiting q => _ | .woken q => _)
      cases s.exec with
      | idle => rintro ⟨_, _, _, _, h⟩; rw [hmt] at h; cases h
      | asking q => rintro ⟨_, _, _, _, h⟩; rw [hmt] at h; cases h
      | asked q n => rintro ⟨_, _, _, _, _, h, _⟩; rw [hmt] at h; cases h
      | waiting q =>
        rintro ⟨h1, n, h2, h3, h4, h5⟩
        refine ⟨h1, n, h2, h3, h4, .inr (.inr ?_)⟩
        rcases h5 with ⟨_, _, g⟩ | ⟨w, g1, g2, g3⟩ | ⟨w, _, g, _⟩
        · rw [hmt] at g; cases g
        · rw [hmt] at g2; cases g2
          exact ⟨v, by simp [g1], rfl, by simp [g3], rfl⟩
        · rw [hmt] at g; cases g
      | woken q => rintro ⟨h1, n, w, h2, h3, h4, h5, h6, _⟩; rw [hmt] at h6; cases h6
    · cases hs
  | telemetry q v =>
    simp only [St.step] at hs
    split at hs
    · by_cases hq : s.pendingState = some q
      · exact absurd (hstart q hq) (hp.quiet q v (by simp))
      · simp only [hq, if_false, Option.some.injEq] at hs; subst hs
        refine ⟨?_, hstart, i.next, fun k hk => i.stored k (by simpa using hk), i.mono_results⟩
        unfold Here at hh ⊢
        revert hh
        show (match s.exec with | .idle => _ | .asking q => _ | .asked q n => _ | .waiting q => _ | .woken q => _) → (match s.exec with | .idle => _ | .asking q => _ | .asked q n => _ | .waiting q => _ | .woken q => _)
        cases s.exec with
        | idle => exact id
        | asking q => exact id
        | asked q n => rintro ⟨h1, h2, h3, h4, h5, h6, h7, h8⟩; exact ⟨h1, h2, h3, h4, h5, h6, by simpa using h7, h8⟩
        | waiting q => rintro ⟨h1, n, h2, h3, h4, h5⟩; refine ⟨h1, n, h2, h3, h4, ?_⟩; simpa using h5
        | woken q => rintro ⟨h1, n, v, h2, h3, h4, h5, h6⟩; exact ⟨h1, n, v, h2, h3, h4, by simp [h5], h6⟩
    · cases hs

theorem inv_run (evs : List (Ev Q V)) : ∀ (s : St Q V), St.run {} evs = some s → Polite evs → Inv evs s := by
  induction evs using snocInd with
  | nil =>
    intro s h _
    simp only [St.run, Option.some.injEq] at h
    subst h
    exact ⟨⟨rfl, rfl, rfl, rfl, rfl⟩, fun q h => by simp at h, by simp, fun n h => by simp at h, fun i q r h => by simp at h⟩
  | snoc evs e ih =>
    intro s h hp
    rw [run_append] at h
    cases hr : St.run {} evs with
    | none => simp [hr] at h
    | some t =>
      simp only [hr, Option.bind_some, St.run] at h
      cases hs : t.step e with
      | none => simp [hs] at h
      | some u =>
        simp only [hs, Option.bind_some, Option.some.injEq] at h
        subst h
        exact inv_step (ih t hr hp.init) hp hs

/-- **C100**, part one: with a well-behaved environment, under every schedule, the `i`-th lookup of the executive gets the value of the reply to the `i`-th question,
and no other. -/
theorem c100_answers_partial (evs : List (Ev Q V)) (s : St Q V) (h : St.run {} evs = some s) (hp : Polite evs) (i : Nat) (q : Q) (r : Option V)
    (hi : s.results[i]? = some (q, r)) : ∃ (n : Nat) (v : V), s.sent[i]? = some (n, q) ∧ r = some v ∧ .reply n v ∈ evs :=
  (inv_run evs s h hp).results i q r hi

/-- **C100**, part two: once the reply to the last question has arrived, nothing can keep the executive from getting it: whatever has happened, the
steps that remain can be taken, and end the lookup with that value. -/
theorem c100_progress_partial (evs : List (Ev Q V)) (s : St Q V) (h : St.run {} evs = some s) (hp : Polite evs) (n : Nat) (q : Q) (v : V)
    (hl : s.sent.getLast? = some (n, q)) (hr : .reply n v ∈ evs) :
    (q, some v) ∈ s.results ∨ ∃ (evs' : List (Ev Q V)) (t : St Q V), (∀ e ∈ evs', e = .write ∨ e = .wake ∨ e = .take) ∧ s.run evs' = some t ∧
      t.exec = .idle ∧ t.results = s.results ++ [(q, some v)] := by
  have i := inv_run evs s h hp
  have uniq : ∀ w, Ev.reply n w ∈ evs → w = v := by
    intro w hw
    have key : ∀ (l : List (Ev Q V)), (l.filterMap Ev.answers).Nodup → .reply n w ∈ l → .reply n v ∈ l → w = v := by
      intro l
      induction l with
      | nil => intro _ hm; simp at hm
      | cons e l ih =>
        intro hnd h1 h2
        rcases List.mem_cons.1 h1 with h1 | h1 <;> rcases List.mem_cons.1 h2 with h2 | h2
        · rw [← h1] at h2; simp at h2; exact h2.symm
        · rw [← h1] at hnd
          simp only [List.filterMap_cons, Ev.answers, List.nodup_cons] at hnd
          exact absurd (mem_answers h2) hnd.1
        · rw [← h2] at hnd
          simp only [List.filterMap_cons, Ev.answers, List.nodup_cons] at hnd
          exact absurd (mem_answers h1) hnd.1
        · refine ih ?_ h1 h2
          cases hx : e.answers with
          | none => simpa [List.filterMap_cons, hx] using hnd
          | some k => simp only [List.filterMap_cons, hx, List.nodup_cons] at hnd; exact hnd.2
    exact key evs hp.once hw hr
  have hlen : ∀ k, s.sent.length = k + 1 → s.sent[k]? = some (n, q) := by
    intro k hk
    rw [List.getLast?_eq_getElem?, hk] at hl
    simpa using hl
  have hdone : s.sent.length = s.results.length → (q, some v) ∈ s.results := by
    intro e
    have hpos : 0 < s.sent.length := by
      cases hsn : s.sent with
      | nil => rw [hsn] at hl; simp at hl
      | cons a b => simp
    obtain ⟨k, hk⟩ : ∃ k, s.results.length = k + 1 := ⟨s.results.length - 1, by omega⟩
    have h1 := hlen k (by omega)
    cases hx : s.results[k]? with
    | none => rw [List.getElem?_eq_none_iff] at hx; omega
    | some p =>
      obtain ⟨n', w, g1, g2, g3⟩ := i.results k p.1 p.2 hx
      rw [h1] at g1
      simp only [Option.some.injEq, Prod.mk.injEq] at g1
      have := uniq w (g1.1 ▸ g3)
      have hpe : p = (q, some v) := by rw [g1.2, ← this, ← g2]
      rw [← hpe]
      exact List.mem_of_getElem? hx
  have hh := i.here
  cases hx : s.exec with
  | idle => simp only [Here, hx] at hh; exact .inl (hdone hh.1)
  | asking q' => simp only [Here, hx] at hh; exact .inl (hdone hh.1)
  | asked q' m =>
    simp only [Here, hx] at hh
    obtain ⟨h1, h2, _, _, _, _, h7, _⟩ := hh
    rw [hlen _ h1] at h2
    simp only [Option.some.injEq, Prod.mk.injEq] at h2
    exact absurd (hp.stored' hr) (h2.1 ▸ h7)
  | waiting q' =>
    simp only [Here, hx] at hh
    obtain ⟨h1, m, h2, _, _, h5⟩ := hh
    rw [hlen _ h1] at h2
    simp only [Option.some.injEq, Prod.mk.injEq] at h2
    obtain ⟨rfl, rfl⟩ := h2
    right
    rcases h5 with ⟨g, _⟩ | ⟨w, g1, g2, g3⟩ | ⟨w, g1, g2, g3, g4⟩
    · exact absurd hr (g v)
    · have := uniq w g1; subst this
      refine ⟨[.write, .wake, .take], { s with exec := .idle, sem := 0, matched := none, results := s.results ++ [(q, some w)], pendingSerial := 0, pendingState := none, pendingResult := none }, by simp, ?_, rfl, rfl⟩
      simp [St.run, St.step, g2, St.locked, hx, g3]
    · have := uniq w g1; subst this
      refine ⟨[.wake, .take], { s with exec := .idle, sem := 0, matched := none, results := s.results ++ [(q, some w)], pendingSerial := 0, pendingState := none, pendingResult := none }, by simp, ?_, rfl, rfl⟩
      simp [St.run, St.step, hx, g3, g2, g4]
  | woken q' =>
    simp only [Here, hx] at hh
    obtain ⟨h1, m, w, h2, _, _, h5, h6, h7, h8⟩ := hh
    rw [hlen _ h1] at h2
    simp only [Option.some.injEq, Prod.mk.injEq] at h2
    obtain ⟨rfl, rfl⟩ := h2
    have := uniq w h5; subst this
    right
    refine ⟨[.take], { s with exec := .idle, sem := 0, matched := none, results := s.results ++ [(q, some w)], pendingSerial := 0, pendingState := none, pendingResult := none }, by simp, ?_, rfl, rfl⟩
    simp [St.run, St.step, hx, h6, h7, h8]

/-- Two lookups, with a command sent and an unrelated change meanwhile. -/
theorem c100_example :
    let evs : List (Ev Nat Nat) := [.start 7, .send, .store 1, .telemetry 9 0, .reply 1 70, .other, .write, .wake, .take, .start 8, .send, .store 3, .reply 3 80, .write, .wake, .take]
    (St.run {} evs).map (fun s => (s.results, s.sent, s.changes)) = some ([(7, some 70), (8, some 80)], [(1, 7), (3, 8)], [(9, 0)]) := by
  decide +kernel

/-- A schedule of a well-behaved environment that answers a lookup; telemetry about something else arrives meanwhile. -/
theorem c100_polite_example :
    let evs : List (Ev Nat Nat) := [.start 7, .send, .store 1, .telemetry 9 0, .reply 1 70, .write, .wake, .take]
    Polite evs ∧ (St.run {} evs).map (fun s => s.results) = some [(7, some 70)] := by
  refine ⟨⟨fun pre post n v h => ?_, by decide, fun q v h hs => ?_⟩, by decide +kernel⟩
  · rcases pre with _ | ⟨a, _ | ⟨b, _ | ⟨c, _ | ⟨d, _ | ⟨e, _ | ⟨f, _ | ⟨g, _ | ⟨i, pre⟩⟩⟩⟩⟩⟩⟩⟩ <;> simp at h
    obtain ⟨rfl, rfl, rfl, rfl, ⟨rfl, rfl⟩, _⟩ := h
    simp
  · simp at h hs; omega

/-- **C100**, what is missing, first: if the reply is handled before the executive has noted the number of its question, it is dropped, and the lookup ends only if there
is another reply, or telemetry about the same state: without, the executive is blocked for ever, under every schedule. -/
theorem c100_early_reply_hangs (q : Q) (v : V) (evs : List (Ev Q V)) (s : St Q V) (h1 : ∀ (w : V), .reply 1 w ∉ evs) (h2 : ∀ (w : V), .telemetry q w ∉ evs)
    (h : St.run {} ([.start q, .send, .reply 1 v, .store 1] ++ evs) = some s) : s.exec = .waiting q ∧ s.results = [] ∧ s.sem = 0 := by
  have h0 : St.run ({} : St Q V) [.start q, .send, .reply 1 v, .store 1] =
      some { exec := .waiting q, pendingState := some q, pendingSerial := 1, next := 2, sent := [(1, q)] } := by
    simp [St.run, St.step]
  rw [run_append, h0, Option.bind_some] at h
  have key : ∀ (evs : List (Ev Q V)) (s t : St Q V), (∀ (w : V), .reply 1 w ∉ evs) → (∀ (w : V), .telemetry q w ∉ evs) →
      (s.exec = .waiting q ∧ s.results = [] ∧ s.sem = 0 ∧ s.matched = none ∧ s.pendingSerial = 1 ∧ s.pendingState = some q) → s.run evs = some t →
      t.exec = .waiting q ∧ t.results = [] ∧ t.sem = 0 := by
    intro evs
    induction evs with
    | nil => intro s t _ _ hs ht; simp only [St.run, Option.some.injEq] at ht; subst ht; exact ⟨hs.1, hs.2.1, hs.2.2.1⟩
    | cons e r ih =>
      intro s t a1 a2 hs ht
      obtain ⟨b1, b2, b3, b4, b5, b6⟩ := hs
      simp only [St.run] at ht
      cases e with
      | start q' => simp [St.step, b1] at ht
      | send => simp [St.step, b1] at ht
      | store m => simp [St.step, b1] at ht
      | wake => simp [St.step, b1, b3] at ht
      | take => simp [St.step, b1] at ht
      | other =>
        simp only [St.step, Option.bind_some] at ht
        exact ih _ t (fun w hw => a1 w (by simp [hw])) (fun w hw => a2 w (by simp [hw])) (by simp [b1, b2, b3, b4, b5, b6]) ht
      | reply m w =>
        have hm : m ≠ 1 := fun e => a1 w (by simp [e])
        simp only [St.step, b4, b5, hm, if_false, Option.bind_some] at ht
        exact ih _ t (fun w hw => a1 w (by simp [hw])) (fun w hw => a2 w (by simp [hw])) (by simp [b1, b2, b3, b4, b5, b6]) ht
      | write => simp [St.step, b4] at ht
      | telemetry q' w =>
        have hq : q ≠ q' := fun e => a2 w (by simp [e])
        simp only [St.step, b4, St.locked, b1, b6, Option.some.injEq, hq, if_false, Option.bind_some] at ht
        exact ih _ t (fun w hw => a1 w (by simp [hw])) (fun w hw => a2 w (by simp [hw])) (by simp [b2, b3, b5]) ht
  exact key evs _ s h1 h2 ⟨rfl, rfl, rfl, rfl, rfl, rfl⟩ h

/-- **C100**, what is missing, second: if there is telemetry about the state as well as a reply, the next lookup does not wait for its answer: it gets "unknown". -/
theorem c100_second_answer_unknown (q q' : Q) (v w : V) :
    (St.run ({} : St Q V) [.start q, .send, .store 1, .telemetry q v, .reply 1 w, .write, .wake, .take, .start q', .send, .store 2, .wake, .take]).map (fun s => s.results) =
      some [(q, some w), (q', none)] := by
  simp [St.run, St.step, St.locked]

/-- **C100**, what is missing, third: or even the value of the other state. -/
theorem c100_second_answer_wrong (q q' : Q) (v w : V) :
    (St.run ({} : St Q V) [.start q, .send, .store 1, .telemetry q v, .reply 1 w, .wake, .take, .start q', .send, .store 2, .write, .wake, .take]).map (fun s => s.results) =
      some [(q, some v), (q', some w)] := by
  simp [St.run, St.step, St.locked]

/-- **C100**, what is missing, fourth: without an answer the executive is blocked for ever. -/
theorem c100_no_answer_hangs (q : Q) (evs : List (Ev Q V)) (s : St Q V) (hn : ∀ (n : Nat) (v : V), .reply n v ∉ evs) (ht : ∀ (q : Q) (v : V), .telemetry q v ∉ evs)
    (h : St.run {} (.start q :: evs) = some s) : s.results = [] := by
  have key : ∀ (evs : List (Ev Q V)) (s t : St Q V), (∀ (n : Nat) (v : V), .reply n v ∉ evs) → (∀ (q : Q) (v : V), .telemetry q v ∉ evs) →
      (s.results = [] ∧ s.sem = 0 ∧ s.matched = none ∧ (∀ q, s.exec ≠ .woken q)) → s.run evs = some t → t.results = [] := by
    intro evs
    induction evs with
    | nil => intro s t _ _ hs ht; simp only [St.run, Option.some.injEq] at ht; subst ht; exact hs.1
    | cons e r ih =>
      intro s t a1 a2 hs ht
      obtain ⟨b1, b2, b3, b4⟩ := hs
      simp only [St.run] at ht
      have c1 : ∀ (n : Nat) (v : V), Ev.reply n v ∉ r := fun n w hw => a1 n w (by simp [hw])
      have c2 : ∀ (q : Q) (v : V), Ev.telemetry q v ∉ r := fun n w hw => a2 n w (by simp [hw])
      cases hs : s.step e with
      | none => simp [hs] at ht
      | some u =>
        simp only [hs, Option.bind_some] at ht
        refine ih u t c1 c2 ?_ ht
        cases e with
        | start q' =>
          simp only [St.step] at hs
          split at hs <;> simp only [Option.some.injEq, reduceCtorEq] at hs
          subst hs; exact ⟨b1, b2, b3, by simp⟩
        | send =>
          simp only [St.step] at hs
          split at hs <;> simp only [Option.some.injEq, reduceCtorEq] at hs
          subst hs; exact ⟨b1, b2, b3, by simp⟩
        | store m =>
          simp only [St.step] at hs
          split at hs
          · split at hs <;> simp only [Option.some.injEq, reduceCtorEq] at hs
            subst hs; exact ⟨b1, b2, b3, by simp⟩
          · cases hs
        | wake => simp [St.step, b2] at hs
        | take =>
          simp [St.step] at hs
        | other => simp only [St.step, Option.some.injEq] at hs; subst hs; exact ⟨b1, b2, b3, b4⟩
        | reply m w => exact absurd (by simp) (a1 m w)
        | write => simp [St.step, b3] at hs
        | telemetry q' w => exact absurd (by simp) (a2 q' w)
  have h' : St.run ({ exec := .asking q, pendingState := some q } : St Q V) evs = some s := by simpa [St.run, St.step] using h
  exact key evs _ s hn ht ⟨rfl, rfl, rfl, by simp⟩ h'

end Verif.Ipc.Rendezvous
