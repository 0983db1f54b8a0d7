import Verif.Sim.Inv
import Verif.Sim.Race
set_option autoImplicit false
/-!
C91-C93: the simulator.
-/
namespace Verif.Sim
variable {V : Type}

/-- C91: at all times, what has been sent and what is still on the agenda together are exactly what has been scheduled; nothing was sent before it was due; a lookup is answered with
the last telemetry value sent. -/
theorem c91_sent (d : Nat → Nat) (t : Int) (evs : List (Ev V)) (s : St V) (h : run d t evs = some s) :
    (s.sent.map due ++ s.agenda).Perm s.asked ∧ (∀ e ∈ s.sent, e.1 ≤ e.2.1 ∧ e.2.1 ≤ s.now) ∧ ∀ n, s.lookups n = lastSent n s.sent :=
  ⟨(inv_run d t evs s h).perm, (inv_run d t evs s h).early, (inv_run d t evs s h).lookups⟩



/-! ## C93 -/

theorem entries_append (name : String) (a b : List (Ev V)) : entries name (a ++ b) = entries name a ++ entries name b := by
  induction a with
  | nil => rfl
  | cons e a ih =>
    cases e <;> simp only [List.cons_append, entries, ih]
    split <;> simp

theorem arrivals_append (name : String) (a b : List (Ev V)) : arrivals name (a ++ b) = arrivals name a + arrivals name b := by
  induction a with
  | nil => simp [arrivals]
  | cons e a ih =>
    cases e <;> simp only [List.cons_append, arrivals, ih]
    split <;> omega

theorem arrivals_lines (name : String) (a : List (Ev V)) (h : ∀ e ∈ a, e.isLine = true) : arrivals name a = 0 := by
  induction a with
  | nil => rfl
  | cons e a ih =>
    have h1 := h e (by simp)
    have h2 := ih (fun e he => h e (by simp [he]))
    cases e <;> simp_all [arrivals, Ev.isLine]

/-- A manager has read the script and has served `k` commands. -/
def MgrOk (script : List (Nat × Resp V)) (k : Nat) (o : Option (Mgr V)) : Prop :=
  match o with
  | none => script = []
  | some m => script ≠ [] ∧ m.counter = k + 1 ∧ (∀ i, find i m.responses = (script.find? (fun e => e.1 == i && e.1 != 0)).map (·.2)) ∧
      m.dflt = (script.reverse.find? (fun e => e.1 == 0)).map (·.2)

theorem choose_wanted {script : List (Nat × Resp V)} {k : Nat} {m : Mgr V} (h : MgrOk script k (some m)) : m.choose = wanted (k + 1) script := by
  obtain ⟨_, h1, h2, h3⟩ := h
  unfold Mgr.choose wanted
  rw [h1, h2, h3]
  cases script.find? _ <;> rfl

theorem mgrOk_add {script : List (Nat × Resp V)} {o : Option (Mgr V)} (h : MgrOk script 0 o) (r : Resp V) (i : Nat) :
    MgrOk (script ++ [(i, r)]) 0 (some ((o.getD {}).addResponse r i)) := by
  have key : ∀ m : Mgr V, m.counter = 1 → (∀ i, find i m.responses = (script.find? (fun e => e.1 == i && e.1 != 0)).map (·.2)) →
      m.dflt = (script.reverse.find? (fun e => e.1 == 0)).map (·.2) → MgrOk (script ++ [(i, r)]) 0 (some (m.addResponse r i)) := by
    intro m h1 h2 h3
    refine ⟨by simp, ?_, ?_, ?_⟩
    · unfold Mgr.addResponse; split
      · exact h1
      · split <;> exact h1
    · intro j
      unfold Mgr.addResponse
      by_cases hi : i = 0
      · subst hi
        have : find 0 m.responses = none := by
          rw [h2]
          have : script.find? (fun e => e.1 == 0 && e.1 != 0) = none := by
            rw [List.find?_eq_none]; intro x _; simp
          rw [this]; rfl
        rw [this]
        simp only [if_true]
        rw [h2, List.find?_append]
        simp
      · split
        · rename_i x hx
          rw [h2, List.find?_append]
          by_cases hj : i = j
          · subst hj
            rw [h2] at hx
            cases hs : script.find? (fun e => e.1 == i && e.1 != 0) with
            | none => rw [hs] at hx; cases hx
            | some y => rfl
          · have : ([(i, r)] : List (Nat × Resp V)).find? (fun e => e.1 == j && e.1 != 0) = none := by simp [hj]
            rw [this]; simp
        · rename_i hx
          simp only [if_neg hi]
          rw [List.find?_append]
          by_cases hj : i = j
          · subst hj
            rw [h2] at hx
            simp only [Option.map_eq_none_iff] at hx
            rw [hx]
            simp [find, hi]
          · have : ([(i, r)] : List (Nat × Resp V)).find? (fun e => e.1 == j && e.1 != 0) = none := by simp [hj]
            rw [this]
            simp [find, hj, h2]
    · unfold Mgr.addResponse
      by_cases hi : i = 0
      · subst hi
        have : find 0 m.responses = none := by
          rw [h2]
          have : script.find? (fun e => e.1 == 0 && e.1 != 0) = none := by
            rw [List.find?_eq_none]; intro x _; simp
          rw [this]; rfl
        rw [this]
        simp
      · have : (script ++ [(i, r)]).reverse.find? (fun e => e.1 == 0) = script.reverse.find? (fun e => e.1 == 0) := by
          simp [hi]
        rw [this, ← h3]
        split
        · rfl
        · rw [if_neg hi]
  cases o with
  | none =>
    simp only [MgrOk] at h
    subst h
    exact key {} rfl (fun i => by simp [find]) (by simp)
  | some m => exact key m h.2.1 h.2.2.1 h.2.2.2

theorem getResponses_next {script : List (Nat × Resp V)} {k : Nat} {m m' : Mgr V} {r : Option (Resp V)} (h : MgrOk script k (some m)) (hg : m.getResponses = some (m', r)) :
    MgrOk script (k + 1) (some m') ∧ ∃ x, wanted (k + 1) script = some x ∧ r = if x.count > 0 then some x else none := by
  unfold Mgr.getResponses at hg
  rw [choose_wanted h] at hg
  cases hw : wanted (k + 1) script with
  | none => rw [hw] at hg; cases hg
  | some x =>
    rw [hw] at hg
    simp only [Option.some.injEq, Prod.mk.injEq] at hg
    obtain ⟨rfl, rfl⟩ := hg
    refine ⟨⟨h.1, ?_, h.2.2.1, h.2.2.2⟩, x, rfl, rfl⟩
    show m.counter + 1 = _
    rw [h.2.1]

theorem schedule_mgrs (d : Nat → Nat) (s : St V) (delay : Int) (m : Msg V) : (s.schedule d delay m).mgrs = s.mgrs := (clock_ext d s).mgrs

theorem mgrs_step (d : Nat → Nat) (s s' : St V) (ev : Ev V) (h : s.step d ev = some s') (name : String) :
    (∃ i r, ev = .response name i r ∧ s'.mgrs name = some (((s.mgrs name).getD {}).addResponse r i)) ∨
    (∃ id m m' r, ev = .command name id ∧ s.mgrs name = some m ∧ m.getResponses = some (m', r) ∧ s'.mgrs name = some m') ∨
    (((∀ i r, ev ≠ .response name i r) ∧ ((∀ id, ev ≠ .command name id) ∨ s.mgrs name = none)) ∧ s'.mgrs name = s.mgrs name) := by
  cases ev with
  | telemetry delay n v =>
    simp only [St.step] at h
    split at h
    · cases h
    · cases h; exact .inr (.inr ⟨⟨by simp, .inl (by simp)⟩, rfl⟩)
  | response n i r =>
    simp only [St.step] at h
    split at h
    · cases h
    · cases h
      by_cases hn : name = n
      · subst hn; exact .inl ⟨i, r, rfl, by simp⟩
      · exact .inr (.inr ⟨⟨by intro i r hh; cases hh; exact hn rfl, .inl (by simp)⟩, by simp [hn]⟩)
  | start =>
    simp only [St.step] at h
    split at h
    · cases h
    · refine .inr (.inr ⟨⟨by simp, .inl (by simp)⟩, ?_⟩)
      have hb : (s.begin d).mgrs = s.mgrs := (clock_ext d s).mgrs
      rcases start_cases d s s' h with ⟨_, rfl⟩ | ⟨t, m, r, ha, ⟨_, rfl⟩ | h⟩
      · rw [hb]
      · rw [hb]
      · rw [(scheduleNext_ext d _ _ _ _ h).mgrs, hb]
  | command n id =>
    rcases command_cases d s s' n id h with ⟨hm, rfl⟩ | ⟨m, m', hm, ⟨hg, rfl⟩ | ⟨r, hg, hs, h⟩⟩
    · refine .inr (.inr ⟨⟨by simp, ?_⟩, by rw [(clock_ext d s).mgrs]⟩)
      by_cases hn : name = n
      · subst hn; exact .inr hm
      · exact .inl (by intro i hh; cases hh; exact hn rfl)
    · by_cases hn : name = n
      · subst hn; exact .inr (.inl ⟨id, m, m', none, rfl, hm, hg, by simp⟩)
      · exact .inr (.inr ⟨⟨by simp, .inl (by intro i hh; cases hh; exact hn rfl)⟩, by simp [hn]⟩)
    · have he := (scheduleNext_ext d _ _ _ _ h).mgrs
      have h2 : (s.asked' d n m' r id).mgrs = fun x => if x = n then some m' else s.mgrs x := schedule_mgrs d _ _ _
      by_cases hn : name = n
      · subst hn; exact .inr (.inl ⟨id, m, m', some r, rfl, hm, hg, by rw [he, h2]; simp⟩)
      · exact .inr (.inr ⟨⟨by simp, .inl (by intro i hh; cases hh; exact hn rfl)⟩, by rw [he, h2]; simp [hn]⟩)
  | tick n => simp only [St.step, Option.some.injEq] at h; subst h; exact .inr (.inr ⟨⟨by simp, .inl (by simp)⟩, by rw [(advance_ext s n).mgrs]⟩)
  | wake =>
    simp only [St.step] at h
    split at h
    · refine .inr (.inr ⟨⟨by simp, .inl (by simp)⟩, ?_⟩)
      rw [(handleWakeUp_ext d _ _ _ h).mgrs]
    · cases h

theorem entries_single (name : String) (ev : Ev V) (h : ∀ i r, ev ≠ .response name i r) : entries name [ev] = [] := by
  cases ev <;> simp [entries]
  rename_i n i r
  intro hn; subst hn; exact h i r rfl

theorem arrivals_single (name : String) (ev : Ev V) (h : ∀ id, ev ≠ .command name id) : arrivals name [ev] = 0 := by
  cases ev <;> simp [arrivals]
  rename_i n i
  intro hn; subst hn; exact h i rfl

theorem mgrs_run (d : Nat → Nat) (t : Int) (name : String) (evs : List (Ev V)) : ∀ s, ScriptFirst evs → run d t evs = some s → MgrOk (entries name evs) (arrivals name evs) (s.mgrs name) := by
  induction evs using List.reverseRecOn with
  | nil => intro s _ h; cases h; rfl
  | append_singleton evs ev ih =>
    intro s' hf h
    obtain ⟨s, h1, h2⟩ := run_snoc d t evs ev s' h
    obtain ⟨f1, _, f2⟩ := List.pairwise_append.mp hf
    have hi := ih s f1 h1
    rw [entries_append, arrivals_append]
    rcases mgrs_step d s s' ev h2 name with ⟨i, r, rfl, hm⟩ | ⟨id, m, m', r, rfl, hm, hg, hm'⟩ | ⟨⟨hr, hc⟩, hm⟩
    · have : arrivals name evs = 0 := arrivals_lines name evs (fun e he => f2 e he _ (List.mem_singleton.mpr rfl) rfl)
      rw [this] at hi ⊢
      rw [hm]
      simpa [entries, arrivals] using mgrOk_add hi r i
    · rw [hm] at hi
      rw [hm']
      simpa [entries, arrivals] using (getResponses_next hi hg).1
    · rw [hm, entries_single name ev hr]
      rcases hc with hc | hc
      · rw [arrivals_single name ev hc]; simpa using hi
      · rw [hc] at hi ⊢; simpa [MgrOk] using hi

theorem scheduleNext_total (d : Nat → Nat) (t : Int) (s : St V) (ho : Ok s) : ∃ s', scheduleNext d s.depth t s = some s' := by
  unfold scheduleNext scheduleNextWith
  split
  · split
    · exact ⟨_, rfl⟩
    · have h2 : Ext s ((s.clock d).clock d) := (clock_ext d s).trans (clock_ext d _)
      obtain ⟨s', h, _⟩ := handleWakeUp_armed d s.depth ((s.clock d).clock d) (ok_ext h2 ho) (.inl (by rw [clock_agenda, clock_agenda]; exact Nat.lt_succ_self _))
      exact ⟨s', h⟩
  · exact ⟨_, rfl⟩

theorem asked'_asked (d : Nat → Nat) (s : St V) (name : String) (m' : Mgr V) (r : Resp V) (id : Nat) :
    ∃ u, s.now ≤ u ∧ u ≤ (s.asked' d name m' r id).now ∧ (s.asked' d name m' r id).asked = s.asked ++ [(u + r.delay, { name := name, value := r.value, id := some id })] := by
  refine ⟨_, ?_, le_refl _, ?_⟩
  · have h1 := (clock_ext d s).now
    have h2 := (clock_ext d ({ s.clock d with mgrs := fun n => if n = name then some m' else s.mgrs n } : St V)).now
    exact le_trans h1 h2
  · show (St.clock d ({ s.clock d with mgrs := _ } : St V)).asked ++ _ = _
    rw [(clock_ext d _).asked]
    show (s.clock d).asked ++ _ = _
    rw [(clock_ext d s).asked]
    rfl

/-- C93: when a command arrives, its k-th arrival, exactly the response the script wants for the k-th one is scheduled, its delay from now; none if the script has nothing for this command
or wants no response. It never fails if the simulator is running and the script has a response for it. -/
theorem c93_kth (d : Nat → Nat) (t : Int) (evs : List (Ev V)) (s : St V) (hf : ScriptFirst evs) (h : run d t evs = some s) (name : String) (id : Nat) :
    (entries name evs = [] → ∃ s', s.step d (.command name id) = some s' ∧ s'.asked = s.asked ∧ s'.sent = s.sent) ∧
    (entries name evs ≠ [] → wanted (arrivals name evs + 1) (entries name evs) = none → s.step d (.command name id) = none) ∧
    (∀ r, entries name evs ≠ [] → wanted (arrivals name evs + 1) (entries name evs) = some r → r.count = 0 →
      ∃ s', s.step d (.command name id) = some s' ∧ s'.asked = s.asked ∧ s'.sent = s.sent) ∧
    (∀ r, entries name evs ≠ [] → wanted (arrivals name evs + 1) (entries name evs) = some r → r.count ≠ 0 → s.started = true →
      ∃ s' u, s.step d (.command name id) = some s' ∧ s.now ≤ u ∧ u ≤ s'.now ∧ s'.asked = s.asked ++ [(u + r.delay, { name := name, value := r.value, id := some id })]) := by
  have hm := mgrs_run d t name evs s hf h
  have clockSent : (s.clock d).asked = s.asked ∧ (s.clock d).sent = s.sent := by
    refine ⟨(clock_ext d s).asked, ?_⟩
    simp only [St.clock, St.advance, St.fire]
    split
    · split <;> rfl
    · rfl
  refine ⟨?_, ?_, ?_, ?_⟩
  · intro he
    cases ho : s.mgrs name with
    | none => exact ⟨s.clock d, by simp only [St.step, St.command, ho], clockSent⟩
    | some m => rw [ho] at hm; exact absurd he hm.1
  · intro he hw
    cases ho : s.mgrs name with
    | none => rw [ho] at hm; exact absurd hm he
    | some m =>
      rw [ho] at hm
      simp only [St.step, St.command, ho, Mgr.getResponses, choose_wanted hm, hw]
  · intro r he hw hc
    cases ho : s.mgrs name with
    | none => rw [ho] at hm; exact absurd hm he
    | some m =>
      rw [ho] at hm
      refine ⟨{ s.clock d with mgrs := fun n => if n = name then some { m with counter := m.counter + 1 } else s.mgrs n }, ?_, clockSent⟩
      simp [St.step, St.command, ho, Mgr.getResponses, choose_wanted hm, hw, hc]
  · intro r he hw hc hs
    cases ho : s.mgrs name with
    | none => rw [ho] at hm; exact absurd hm he
    | some m =>
      rw [ho] at hm
      have hc' : r.count > 0 := Nat.pos_of_ne_zero hc
      have hi := inv_run d t evs s h
      have hsch : Inv (s.asked' d name { m with counter := m.counter + 1 } r id) := inv_schedule d _ _ (inv_mgrs _ (inv_clock d hi))
      obtain ⟨s', hs'⟩ := scheduleNext_total d (s.clock d).now _ hsch.ok
      obtain ⟨u, u1, u2, u3⟩ := asked'_asked d s name { m with counter := m.counter + 1 } r id
      have he := scheduleNext_ext d _ _ _ _ hs'
      refine ⟨s', u, ?_, u1, le_trans u2 he.now, by rw [he.asked, u3]⟩
      simp only [St.step, St.command, ho, Mgr.getResponses, choose_wanted hm, hw, hc', if_true, hs]
      exact hs'


/-! ## C91: order -/

theorem wanted_mem {k : Nat} {script : List (Nat × Resp V)} {r : Resp V} (h : wanted k script = some r) : ∃ i, (i, r) ∈ script := by
  unfold wanted at h
  split at h
  · rename_i e he
    cases h
    exact ⟨e.1, List.mem_of_find?_eq_some he⟩
  · obtain ⟨e, he, rfl⟩ := Option.map_eq_some_iff.mp h
    exact ⟨e.1, by have := List.mem_of_find?_eq_some he; simpa using this⟩

theorem entries_mem {name : String} {i : Nat} {r : Resp V} {evs : List (Ev V)} (h : (i, r) ∈ entries name evs) : Ev.response name i r ∈ evs := by
  induction evs with
  | nil => cases h
  | cons e l ih =>
    cases e <;> simp only [entries] at h <;> try exact List.mem_cons_of_mem _ (ih h)
    rename_i n j x
    split at h
    · rename_i hn
      subst hn
      rcases List.mem_cons.mp h with hh | hh
      · cases hh; exact List.mem_cons_self
      · exact List.mem_cons_of_mem _ (ih hh)
    · exact List.mem_cons_of_mem _ (ih h)

/-- Sent and to be sent are in the order of their times. -/
def InOrder (s : St V) : Prop := (s.sent.map due ++ s.agenda).Pairwise (fun a b => a.1 ≤ b.1)

theorem inOrder_ext {s s' : St V} (h : Ext s s') (ho : InOrder s) : InOrder s' := by
  obtain ⟨ex, h1, h2, _⟩ := h.sent
  unfold InOrder at *
  rw [h2, List.map_append, List.append_assoc, ← h1]
  exact ho

theorem inOrder_insert {s : St V} (hi : Inv s) (ho : InOrder s) (t : Int) (m : Msg V) (ht : s.now ≤ t ∨ s.sent = []) :
    (s.sent.map due ++ insert t m s.agenda).Pairwise (fun a b => a.1 ≤ b.1) := by
  obtain ⟨a, b, c⟩ := List.pairwise_append.mp ho
  refine List.pairwise_append.mpr ⟨a, insert_sorted t m _ b, ?_⟩
  intro x hx y hy
  rcases List.mem_cons.mp ((insert_perm t m _).mem_iff.mp hy) with rfl | hy
  · rcases ht with ht | ht
    · obtain ⟨e, he, rfl⟩ := List.mem_map.mp hx
      have := hi.early e he
      show e.1 ≤ t
      omega
    · rw [ht] at hx; cases hx
  · exact c x hx y hy

theorem inOrder_run (d : Nat → Nat) (t : Int) (evs : List (Ev V)) : ∀ s, ScriptFirst evs → NoneInThePast evs → run d t evs = some s → InOrder s := by
  induction evs using List.reverseRecOn with
  | nil => intro s _ _ h; cases h; exact List.Pairwise.nil
  | append_singleton evs ev ih =>
    intro s' hf hp h
    obtain ⟨s, h1, h2⟩ := run_snoc d t evs ev s' h
    have hp' : NoneInThePast evs := fun n i r hm => hp n i r (by simp [hm])
    have hf' : ScriptFirst evs := (List.pairwise_append.mp hf).1
    have ho := ih s hf' hp' h1
    have hi := inv_run d t evs s h1
    cases ev with
    | telemetry delay name v =>
      simp only [St.step] at h2
      cases hs : s.started with
      | true => rw [hs] at h2; simp at h2
      | false =>
        rw [hs] at h2
        simp only [Bool.false_eq_true, if_false, Option.some.injEq] at h2
        subst h2
        exact inOrder_insert hi ho delay _ (.inr (hi.idle hs).1)
    | response name i r =>
      simp only [St.step] at h2
      split at h2
      · cases h2
      · cases h2; exact ho
    | start =>
      simp only [St.step] at h2
      cases hs : s.started with
      | true => rw [hs] at h2; simp at h2
      | false =>
        rw [hs] at h2
        simp only [Bool.false_eq_true, if_false] at h2
        have hb : InOrder (s.begin d) := by
          have hib := inv_begin d hs hi
          have h0 : (s.begin d).sent = [] := ((inv_clock d hi).idle ((clock_ext d s).started.trans hs)).1
          unfold InOrder
          rw [h0]
          exact hib.ok.sorted
        rcases start_cases d s s' h2 with ⟨_, rfl⟩ | ⟨t, m, r, ha, ⟨_, rfl⟩ | h⟩
        · exact hb
        · exact hb
        · exact inOrder_ext (scheduleNext_ext d _ _ _ _ h) hb
    | command name id =>
      have hm := mgrs_run d t name evs s hf' h1
      rcases command_cases d s s' name id h2 with ⟨_, rfl⟩ | ⟨m, m', hmm, ⟨_, rfl⟩ | ⟨r, hg, hs, h⟩⟩
      · exact inOrder_ext (clock_ext d s) ho
      · exact (inOrder_ext (clock_ext d s) ho : InOrder (s.clock d))
      · refine inOrder_ext (scheduleNext_ext d _ _ _ _ h) ?_
        rw [hmm] at hm
        obtain ⟨_, x, hw, hr⟩ := getResponses_next hm hg
        have hrx : r = x := by
          split at hr
          · exact Option.some.inj hr
          · cases hr
        subst hrx
        obtain ⟨i, hir⟩ := wanted_mem hw
        have hd : 0 ≤ r.delay := hp' name i r (entries_mem hir)
        have h1 : Inv ({ s.clock d with mgrs := fun n => if n = name then some m' else s.mgrs n } : St V) := inv_mgrs _ (inv_clock d hi)
        have o1 : InOrder ({ s.clock d with mgrs := fun n => if n = name then some m' else s.mgrs n } : St V) := (inOrder_ext (clock_ext d s) ho : InOrder (s.clock d))
        exact inOrder_insert (inv_clock d h1) (inOrder_ext (clock_ext d _) o1) _ _ (.inl (by omega))
    | tick n => simp only [St.step, Option.some.injEq] at h2; subst h2; exact inOrder_ext (advance_ext s n) ho
    | wake =>
      simp only [St.step] at h2
      split at h2
      · exact inOrder_ext (s := { s with pending := false }) (handleWakeUp_ext d _ _ _ h2) ho
      · cases h2

/-- C91: what is sent is sent in the order of the times at which it is due, if no delay is negative. -/
theorem c91_order_partial (d : Nat → Nat) (t : Int) (evs : List (Ev V)) (s : St V) (hf : ScriptFirst evs) (hp : NoneInThePast evs) (h : run d t evs = some s) :
    (s.sent.map (·.1)).Pairwise (· ≤ ·) := by
  have := (List.pairwise_append.mp (inOrder_run d t evs s hf hp h)).1
  rw [List.pairwise_map] at this ⊢
  exact this

/-! ## C92 -/

theorem armed_advance {s : St V} (n : Nat) (h : Armed s) : Armed (s.advance n) := by
  unfold Armed
  rw [advance_agenda]
  rcases h with h | h | ⟨t, h1, h2⟩
  · exact .inl h
  · refine .inr (.inl ?_)
    unfold St.advance St.fire
    split
    · split
      · rfl
      · exact h
    · exact h
  · by_cases ht : t ≤ s.now + n
    · refine .inr (.inl ?_)
      unfold St.advance St.fire
      simp only [h1, ht, if_true]
    · refine .inr (.inr ⟨t, ?_, h2⟩)
      unfold St.advance St.fire
      simp only [h1, ht, if_false]

theorem armed_clock {s : St V} (d : Nat → Nat) (h : Armed s) : Armed (s.clock d) := armed_advance (d s.seen.length) h

theorem scheduleNext_past (d : Nat → Nat) (hd : ∀ n, 0 < d n) (t : Int) (s s' : St V) (ho : Ok s) (ht : t ≤ s.now) (h : scheduleNext d s.depth t s = some s') :
    Lucky s' → Armed s' := by
  unfold scheduleNext scheduleNextWith at h
  have h2 : Ext s ((s.clock d).clock d) := (clock_ext d s).trans (clock_ext d _)
  have hn : s.now < (s.clock d).now := by rw [clock_now]; have := hd s.seen.length; omega
  have hn2 : (s.clock d).now ≤ ((s.clock d).clock d).now := (clock_ext d _).now
  have hm : mustSet (s.clock d).timer t = true := by
    unfold mustSet
    cases hc : (s.clock d).timer with
    | none => rfl
    | some u => have := clock_timer d s u hc; simp; omega
  rw [if_pos hm] at h
  have hset : ((s.clock d).clock d).setTimer t = none := by unfold St.setTimer; rw [if_pos (by omega)]
  rw [hset] at h
  obtain ⟨x, hx, hl⟩ := handleWakeUp_armed d s.depth ((s.clock d).clock d) (ok_ext h2 ho) (.inl (by rw [clock_agenda, clock_agenda]; exact Nat.lt_succ_self _))
  simp only at h
  rw [h] at hx
  cases hx
  exact hl

theorem armed_run (d : Nat → Nat) (hd : ∀ n, 0 < d n) (t : Int) (evs : List (Ev V)) : ∀ s, run d t evs = some s → s.started = true → Lucky s → Armed s := by
  induction evs using List.reverseRecOn with
  | nil => intro s h hs; cases h; cases hs
  | append_singleton evs ev ih =>
    intro s' h hst hl
    obtain ⟨s, h1, h2⟩ := run_snoc d t evs ev s' h
    have hi := inv_run d t evs s h1
    cases ev with
    | telemetry delay name v =>
      simp only [St.step] at h2
      split at h2
      · cases h2
      · rename_i hs; cases h2; exact absurd hst hs
    | response name i r =>
      simp only [St.step] at h2
      split at h2
      · cases h2
      · rename_i hs; cases h2; exact absurd hst hs
    | start =>
      simp only [St.step] at h2
      cases hs : s.started with
      | true => rw [hs] at h2; simp at h2
      | false =>
        rw [hs] at h2
        simp only [Bool.false_eq_true, if_false] at h2
        have hb := inv_begin d hs hi
        rcases start_cases d s s' h2 with ⟨ha, rfl⟩ | ⟨u, m, r, ha, ⟨h0, rfl⟩ | h⟩
        · exact .inl ha
        · exact absurd h0 (hl (u, m) (hb.ok.sub _ (by rw [ha]; simp))).1
        · obtain ⟨x, hx, hxl⟩ := scheduleNextWith_head d (handleWakeUp d (s.begin d).depth) (s.begin d) hb.ok u m r ha (fun b hb1 hb2 hb3 =>
            handleWakeUp_armed d _ b hb1 (.inl (by rw [hb2]; exact Nat.lt_succ_self _)))
          unfold scheduleNext at h
          rw [h] at hx
          cases hx
          exact hxl hl
    | command name id =>
      rcases command_cases d s s' name id h2 with ⟨_, rfl⟩ | ⟨m, m', hmm, ⟨_, rfl⟩ | ⟨r, hg, hs, h⟩⟩
      · exact armed_clock d (ih s h1 ((clock_ext d s).started.symm.trans hst) (lucky_ext (clock_ext d s) hl))
      · exact armed_clock d (ih s h1 ((clock_ext d s).started.symm.trans hst) (lucky_ext (clock_ext d s) hl))
      · have hsch : Inv (s.asked' d name m' r id) := inv_schedule d _ _ (inv_mgrs _ (inv_clock d hi))
        refine scheduleNext_past d hd _ _ _ hsch.ok ?_ h hl
        exact (clock_ext d ({ s.clock d with mgrs := fun n => if n = name then some m' else s.mgrs n } : St V)).now
    | tick n =>
      simp only [St.step, Option.some.injEq] at h2
      subst h2
      exact armed_advance n (ih s h1 ((advance_ext s n).started.symm.trans hst) (lucky_ext (advance_ext s n) hl))
    | wake =>
      simp only [St.step] at h2
      split at h2
      · obtain ⟨x, hx, hxl⟩ := handleWakeUp_armed d ({ s with pending := false } : St V).depth { s with pending := false } ⟨hi.ok.sorted, hi.ok.sub⟩ (.inl (Nat.lt_succ_self _))
        rw [h2] at hx
        cases hx
        exact hxl hl
      · cases h2

theorem handleWakeUp_leaves (d : Nat → Nat) (n : Nat) (s s' : St V) (ho : Ok s) (h : handleWakeUp d n s = some s') : ∀ e ∈ s'.agenda, s.now < e.1 := by
  cases n with
  | zero => cases h
  | succ n =>
    obtain ⟨e1, e2, e3, _⟩ := sendDue_ext (s.clock d).agenda (s.clock d) rfl
    have o2 := ok_ext e1 (ok_ext (clock_ext d s) ho)
    obtain ⟨ex, x1, _⟩ := (afterDue_ext d _ (handleWakeUp_ext d n) _ _ h).sent
    intro e he
    have hm : e ∈ (sendDue (s.clock d).now (s.clock d).agenda (s.clock d)).agenda := by rw [x1]; simp [he]
    have hc := (clock_ext d s).now
    cases ha : (sendDue (s.clock d).now (s.clock d).agenda (s.clock d)).agenda with
    | nil => rw [ha] at hm; cases hm
    | cons y r =>
      have hy := e3 y r ha
      have so := o2.sorted
      rw [ha] at hm so
      have := head_le so e hm
      omega

/-- C92: the simulator forgets nothing: as soon as the time of a scheduled response has come, its wait ends, and then the response is sent, if two readings of the clock are at
least a microsecond apart and no response is due at a full second or in the very microsecond in which the clock is read. -/
theorem c92_sent_partial (d : Nat → Nat) (hd : ∀ n, 0 < d n) (t : Int) (evs : List (Ev V)) (s : St V) (h : run d t evs = some s) (hs : s.started = true) (hl : Lucky s)
    (e : Int × Msg V) (he : e ∈ s.agenda) (n : Nat) (hn : e.1 ≤ s.now + n) :
    ∃ s', run d t (evs ++ [.tick n, .wake]) = some s' ∧ ∃ u, (e.1, u, e.2) ∈ s'.sent ∧ e.1 ≤ u := by
  have hrun : run d t (evs ++ [.tick n, .wake]) = (s.advance n).step d .wake := by
    unfold run at h ⊢
    rw [List.foldlM_append, h]
    simp [St.step]
  rw [hrun]
  have hi : Inv (s.advance n) := inv_advance n (inv_run d t evs s h)
  have ha : Armed (s.advance n) := armed_advance n (armed_run d hd t evs s h hs hl)
  have hp : (s.advance n).pending = true := by
    rcases ha with ha | ha | ⟨u, h1, h2⟩
    · rw [advance_agenda] at ha; rw [ha] at he; cases he
    · exact ha
    · have := advance_timer s n u h1
      have := h2 e (by rw [advance_agenda]; exact he)
      omega
  have hst : (s.advance n).started = true := (advance_ext s n).started.trans hs
  rw [show (s.advance n).step d .wake = handleWakeUp d ({ s.advance n with pending := false } : St V).depth { s.advance n with pending := false } from if_pos ⟨hst, hp⟩]
  have ok2 : Ok ({ s.advance n with pending := false } : St V) := ⟨hi.ok.sorted, hi.ok.sub⟩
  obtain ⟨s', h', _⟩ := handleWakeUp_armed d ({ s.advance n with pending := false } : St V).depth _ ok2 (.inl (Nat.lt_succ_self _))
  refine ⟨s', h', ?_⟩
  have hleave := handleWakeUp_leaves d _ _ _ ok2 h'
  obtain ⟨ex, x1, x2, x3, _⟩ := (handleWakeUp_ext d _ _ _ h').sent
  have hmem : e ∈ ex.map due ++ s'.agenda := by rw [← x1]; show e ∈ (s.advance n).agenda; rw [advance_agenda]; exact he
  rcases List.mem_append.mp hmem with hmem | hmem
  · obtain ⟨y, hy, rfl⟩ := List.mem_map.mp hmem
    exact ⟨y.2.1, by rw [x2]; simp [due, hy], (x3 y hy).1⟩
  · have := hleave e hmem
    have hnow : (s.advance n).now = s.now + n := advance_now s n
    have : (s.advance n).now < e.1 := this
    omega

/-! ## Counterexamples and examples -/

/-- The clock advances by one microsecond with every reading. -/
def tickTock : Nat → Nat := fun _ => 1

/-- A script whose second telemetry value is due at a full second, five microseconds after the start at 99.999990 s. -/
def forgotten : List (Ev Nat) := [.telemetry 3 "a" 1, .telemetry 9 "b" 2, .start, .tick 3, .wake]

/-- C92 fails: a response that is due at a full second is never sent: the simulator does not wake up again however long it waits. -/
theorem c92_forgotten : ∃ s, run tickTock 99999990 forgotten = some s ∧ s.started = true ∧ s.agenda.map (fun e => (e.1, e.2.name)) = [(100000000, "b")] ∧
    ∀ n, (s.advance n).step tickTock .wake = none ∧ ((s.advance n).agenda.map (fun e => e.2.name)) = ["b"] := by
  obtain ⟨s, hs, ho⟩ := Option.map_eq_some_iff.mp (show (run tickTock 99999990 forgotten).map (fun s => (s.started, s.agenda.map (fun e => (e.1, e.2.name)), s.timer, s.pending)) =
    some (true, [(100000000, "b")], none, false) by decide +kernel)
  simp only [Prod.mk.injEq] at ho
  obtain ⟨o1, o2, o3, o4⟩ := ho
  refine ⟨s, hs, o1, o2, fun n => ?_⟩
  have hf : s.advance n = { s with now := s.now + n } := idle_fire ({ s with now := s.now + n } : St Nat) o3
  rw [hf]
  constructor
  · simp [St.step, o4]
  · have := congrArg (List.map Prod.snd) o2
    simpa using this

/-- C92 fails: a response due in the very microsecond in which the timer is set: the timer is switched off instead. -/
theorem c92_forgotten_now : ∃ s, run tickTock 100000000 [.telemetry 2 "a" 1, .start] = some s ∧ s.agenda.map (fun e => (e.1, e.2.name)) = [(s.now, "a")] ∧
    ∀ n, (s.advance n).step tickTock .wake = none := by
  obtain ⟨s, hs, ho⟩ := Option.map_eq_some_iff.mp (show (run tickTock 100000000 [.telemetry 2 "a" 1, .start]).map (fun s => (s.started, s.agenda.map (fun e => (e.1, e.2.name)), s.timer, s.pending, s.now)) =
    some (true, [(100000003, "a")], none, false, 100000003) by decide +kernel)
  simp only [Prod.mk.injEq] at ho
  obtain ⟨o1, o2, o3, o4, o5⟩ := ho
  refine ⟨s, hs, by rw [o5]; exact o2, fun n => ?_⟩
  have hf : s.advance n = { s with now := s.now + n } := idle_fire ({ s with now := s.now + n } : St Nat) o3
  rw [hf]
  simp [St.step, o4]

/-- C92: the hypotheses are met by a running simulator with something to send. -/
example : ∃ s, run tickTock 100000000 [.telemetry 30 "a" 1, .start] = some s ∧ s.started = true ∧ Lucky s ∧ s.agenda.map (fun e => (e.1, e.2.name)) = [(100000031, "a")] := by
  obtain ⟨s, hs, ho⟩ := Option.map_eq_some_iff.mp (show (run tickTock 100000000 [.telemetry 30 "a" 1, .start]).map (fun s =>
    (s.started, s.agenda.map (fun e => (e.1, e.2.name)), s.asked.map (·.1), s.seen)) =
    some (true, [(100000031, "a")], [100000031], [100000001, 100000002, 100000003]) by decide +kernel)
  simp only [Prod.mk.injEq] at ho
  obtain ⟨o1, o2, o3, o4⟩ := ho
  refine ⟨s, hs, o1, ?_, o2⟩
  intro e he
  have : e.1 ∈ s.asked.map (·.1) := List.mem_map.mpr ⟨e, he, rfl⟩
  rw [o3] at this
  simp at this
  rw [this, o4]
  decide

/-- C91 fails for responses due at the same time: they are sent in reverse, and the value of the state afterwards is that of the line of the script that comes first. -/
theorem c91_tie : ∃ s, run tickTock 100000000 [.telemetry 30 "a" 1, .telemetry 30 "a" 2, .start, .tick 30, .wake] = some s ∧
    s.sent.map (fun e => (e.1, e.2.2.value)) = [(100000031, 2), (100000031, 1)] ∧ s.lookups "a" = some 1 := by
  obtain ⟨s, hs, ho⟩ := Option.map_eq_some_iff.mp (show (run tickTock 100000000 [.telemetry 30 "a" 1, .telemetry 30 "a" 2, .start, .tick 30, .wake]).map (fun s =>
    (s.sent.map (fun e => (e.1, e.2.2.value)), s.lookups "a")) = some ([(100000031, 2), (100000031, 1)], some 1) by decide +kernel)
  simp only [Prod.mk.injEq] at ho
  exact ⟨s, hs, ho.1, ho.2⟩

/-- C91 fails for two threads: both look at the first of two responses; one takes it, the other takes the second one, which is not yet due. -/
theorem c91_race : ∃ s : Race Nat, [true, true, false, false, true, false].foldlM Race.step
      { agenda := [(5, { name := "a", value := 1 }), (100, { name := "b", value := 2 })], now := fun _ => 10 } = some s ∧
    s.sent.map (fun e => (e.1, e.2.1, e.2.2.value)) = [(5, 10, 1), (100, 10, 2)] :=
  Option.map_eq_some_iff.mp (show Option.map _ _ = some [(5, 10, 1), (100, 10, 2)] by decide +kernel)

/-- C91 fails for two threads: both look at the only response; one takes it, the other finds nothing, and a check fails. -/
theorem c91_race_crash : [true, true, false, false, true, false].foldlM Race.step
      ({ agenda := [(5, { name := "a", value := 1 })], now := fun _ => 10 } : Race Nat) = none := by
  rfl

/-- C93: a script with responses for the first and third command and a default one; the second of the three commands gets the default one. -/
def scripted : List (Ev Nat) := [.response "c" 1 ⟨11, 5, 1⟩, .response "c" 3 ⟨13, 5, 1⟩, .response "c" 0 ⟨10, 5, 1⟩, .start, .command "c" 7, .command "c" 8, .command "c" 9]

theorem c93_example : ScriptFirst scripted ∧ NoneInThePast scripted ∧ entries "c" scripted ≠ [] ∧ arrivals "c" scripted = 3 ∧
    ∃ s, run tickTock 100000000 scripted = some s ∧ s.asked.map (fun e => (e.2.id, e.2.value)) = [(some 7, 11), (some 8, 10), (some 9, 13)] := by
  refine ⟨by unfold ScriptFirst scripted; decide, ?_, by simp [entries, scripted], by decide, ?_⟩
  · intro n i r h
    simp only [scripted, List.mem_cons, Ev.response.injEq, reduceCtorEq, List.not_mem_nil, or_false] at h
    rcases h with ⟨_, _, rfl⟩ | ⟨_, _, rfl⟩ | ⟨_, _, rfl⟩ <;> decide
  · exact Option.map_eq_some_iff.mp (show Option.map _ _ = some [(some 7, 11), (some 8, 10), (some 9, 13)] by decide +kernel)

end Verif.Sim
