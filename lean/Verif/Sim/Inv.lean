import Verif.Sim.Lemmas
import Mathlib.Data.List.Induction
set_option autoImplicit false
/-!
Invariants of the simulator, for C91-C93.
-/
namespace Verif.Sim
variable {V : Type}

theorem insert_perm (t : Int) (m : Msg V) (a : Agenda V) : (insert t m a).Perm ((t, m) :: a) := by
  induction a with
  | nil => exact .refl _
  | cons e r ih =>
    simp only [insert]
    split
    · exact (List.Perm.cons e ih).trans (.swap _ _ _)
    · exact .refl _

theorem insert_sorted (t : Int) (m : Msg V) (a : Agenda V) (h : a.Pairwise (fun a b => a.1 ≤ b.1)) : (insert t m a).Pairwise (fun a b => a.1 ≤ b.1) := by
  induction a with
  | nil => simp [insert]
  | cons e r ih =>
    obtain ⟨h1, h2⟩ := List.pairwise_cons.mp h
    simp only [insert]
    split
    · rename_i hlt
      refine List.pairwise_cons.mpr ⟨?_, ih h2⟩
      intro x hx
      rcases List.mem_cons.mp ((insert_perm t m r).mem_iff.mp hx) with rfl | hx
      · exact le_of_lt hlt
      · exact h1 x hx
    · rename_i hlt
      refine List.pairwise_cons.mpr ⟨?_, h⟩
      intro x hx
      rcases List.mem_cons.mp hx with rfl | hx
      · exact not_lt.mp hlt
      · exact le_trans (not_lt.mp hlt) (h1 x hx)

/-- What holds at all times. -/
structure Inv (s : St V) : Prop where
  ok : Ok s
  perm : (s.sent.map due ++ s.agenda).Perm s.asked
  early : ∀ e ∈ s.sent, e.1 ≤ e.2.1 ∧ e.2.1 ≤ s.now
  lookups : ∀ n, s.lookups n = lastSent n s.sent
  idle : s.started = false → s.sent = [] ∧ s.timer = none ∧ s.pending = false

theorem idle_fire (s : St V) (h : s.timer = none) : s.fire = s := by unfold St.fire; rw [h]

theorem inv_ext {s s' : St V} (h : Ext s s') (hi : Inv s) (hid : s'.started = false → s'.sent = [] ∧ s'.timer = none ∧ s'.pending = false) : Inv s' := by
  obtain ⟨ex, h1, h2, h3, h4⟩ := h.sent
  refine ⟨ok_ext h hi.ok, ?_, ?_, ?_, hid⟩
  · rw [h.asked, h2, List.map_append, List.append_assoc, ← h1]; exact hi.perm
  · intro e he
    rw [h2] at he
    rcases List.mem_append.mp he with he | he
    · have := hi.early e he; have := h.now; omega
    · have := h3 e he; omega
  · intro n
    simp only [h4, h2, lastSent_append, hi.lookups]

theorem inv_advance {s : St V} (n : Nat) (hi : Inv s) : Inv (s.advance n) := by
  refine inv_ext (advance_ext s n) hi (fun h => ?_)
  have hs : s.started = false := by rw [← (advance_ext s n).started]; exact h
  obtain ⟨a, b, c⟩ := hi.idle hs
  have hf : s.advance n = { s with now := s.now + n } := idle_fire ({ s with now := s.now + n } : St V) b
  rw [hf]
  exact ⟨a, b, c⟩

theorem inv_clock {s : St V} (d : Nat → Nat) (hi : Inv s) : Inv (s.clock d) := by
  have := inv_advance (d s.seen.length) hi
  exact ⟨⟨this.ok.sorted, this.ok.sub⟩, this.perm, this.early, this.lookups, this.idle⟩

theorem inv_schedule {s : St V} (d : Nat → Nat) (delay : Int) (m : Msg V) (hi : Inv s) : Inv (s.schedule d delay m) := by
  have := inv_clock d hi
  have hp := insert_perm ((s.clock d).now + delay) m (s.clock d).agenda
  refine ⟨⟨insert_sorted _ _ _ this.ok.sorted, ?_⟩, ?_, this.early, this.lookups, this.idle⟩
  · intro e he
    rcases List.mem_cons.mp (hp.mem_iff.mp he) with rfl | he
    · simp [St.schedule]
    · have := this.ok.sub e he; simp [St.schedule, this]
  · show ((s.clock d).sent.map due ++ insert _ m (s.clock d).agenda).Perm ((s.clock d).asked ++ [_])
    refine (List.Perm.append_left _ hp).trans ?_
    refine List.perm_middle.trans ?_
    exact (List.Perm.cons _ this.perm).trans (List.perm_append_singleton _ _).symm

theorem inv_mgrs {s : St V} (f : String → Option (Mgr V)) (hi : Inv s) : Inv { s with mgrs := f } :=
  ⟨⟨hi.ok.sorted, hi.ok.sub⟩, hi.perm, hi.early, hi.lookups, hi.idle⟩

theorem scheduleNext_ext (d : Nat → Nat) (n : Nat) (t : Int) (s s' : St V) (h : scheduleNext d n t s = some s') : Ext s s' :=
  scheduleNextWith_ext d _ (handleWakeUp_ext d n) t s s' h

theorem shift_sorted (t : Int) (a : Agenda V) (h : a.Pairwise (fun a b => a.1 ≤ b.1)) : (shift t a).Pairwise (fun a b => a.1 ≤ b.1) := by
  unfold shift
  rw [List.pairwise_map]
  exact h.imp (fun h => by simpa using h)

/-- The state in which the simulator begins to wait, before its timer is set. -/
def St.begin (d : Nat → Nat) (s : St V) : St V :=
  { s.clock d with started := true, agenda := shift (s.clock d).now s.agenda, asked := shift (s.clock d).now s.asked }

theorem inv_begin {s : St V} (d : Nat → Nat) (hs : s.started = false) (hi : Inv s) : Inv (s.begin d) := by
  have hc := inv_clock d hi
  have hcs : (s.clock d).started = false := (clock_ext d s).started.trans hs
  obtain ⟨a, b, c⟩ := hc.idle hcs
  obtain ⟨a0, _, _⟩ := hi.idle hs
  refine ⟨⟨shift_sorted _ _ hi.ok.sorted, ?_⟩, ?_, ?_, hc.lookups, ?_⟩
  · intro e he
    obtain ⟨x, hx, rfl⟩ := List.mem_map.mp he
    exact List.mem_map.mpr ⟨x, hi.ok.sub x hx, rfl⟩
  · have := hi.perm
    rw [a0] at this
    simp only [List.map_nil, List.nil_append] at this
    show ((s.clock d).sent.map due ++ shift _ s.agenda).Perm (shift _ s.asked)
    rw [a]
    exact this.map _
  · exact hc.early
  · intro h; cases h

/-- The state in which a command's response has been scheduled. -/
def St.asked' (d : Nat → Nat) (s : St V) (name : String) (m' : Mgr V) (r : Resp V) (id : Nat) : St V :=
  St.schedule d { s.clock d with mgrs := fun n => if n = name then some m' else s.mgrs n } r.delay { name := name, value := r.value, id := some id }

theorem command_cases (d : Nat → Nat) (s s' : St V) (name : String) (id : Nat) (h : s.command d name id = some s') :
    (s.mgrs name = none ∧ s' = s.clock d) ∨ ∃ m m', s.mgrs name = some m ∧
      ((m.getResponses = some (m', none) ∧ s' = { s.clock d with mgrs := fun n => if n = name then some m' else s.mgrs n }) ∨
       ∃ r, m.getResponses = some (m', some r) ∧ s.started = true ∧ scheduleNext d (s.asked' d name m' r id).depth (s.clock d).now (s.asked' d name m' r id) = some s') := by
  unfold St.command at h
  cases hm : s.mgrs name with
  | none => rw [hm] at h; exact .inl ⟨rfl, (Option.some.inj h).symm⟩
  | some m =>
    rw [hm] at h
    simp only at h
    cases hg : m.getResponses with
    | none => rw [hg] at h; cases h
    | some p =>
      obtain ⟨m', r⟩ := p
      rw [hg] at h
      refine .inr ⟨m, m', rfl, ?_⟩
      cases r with
      | none => exact .inl ⟨hg, (Option.some.inj h).symm⟩
      | some r =>
        simp only at h
        cases hs : s.started with
        | false => rw [hs] at h; simp at h
        | true =>
          rw [hs] at h
          simp only [if_true] at h
          exact .inr ⟨r, hg, rfl, h⟩

theorem start_cases (d : Nat → Nat) (s s' : St V) (h : s.start d = some s') :
    ((s.begin d).agenda = [] ∧ s' = s.begin d) ∨ ∃ t m r, (s.begin d).agenda = (t, m) :: r ∧
      ((t / 1000000 = 0 ∧ s' = s.begin d) ∨ scheduleNext d (s.begin d).depth t (s.begin d) = some s') := by
  unfold St.start at h
  change (match (s.begin d).agenda with
    | [] => some (s.begin d)
    | (t, _) :: _ => if t / 1000000 ≠ 0 ∨ t % 1000000 ≠ 0 then scheduleNext d (s.begin d).depth t (s.begin d) else some (s.begin d)) = some s' at h
  cases ha : (s.begin d).agenda with
  | nil => rw [ha] at h; exact .inl ⟨rfl, (Option.some.inj h).symm⟩
  | cons e r =>
    obtain ⟨t, m⟩ := e
    rw [ha] at h
    simp only at h
    refine .inr ⟨t, m, r, rfl, ?_⟩
    split at h
    · exact .inr h
    · rename_i hc
      exact .inl ⟨by omega, (Option.some.inj h).symm⟩

theorem inv_step (d : Nat → Nat) (s s' : St V) (ev : Ev V) (hi : Inv s) (h : s.step d ev = some s') : Inv s' := by
  cases ev with
  | telemetry delay name v =>
    simp only [St.step] at h
    cases hs : s.started with
    | true => rw [hs] at h; simp at h
    | false =>
      rw [hs] at h
      simp only [Bool.false_eq_true, if_false, Option.some.injEq] at h
      subst h
      have hp := insert_perm delay ({ name := name, value := v } : Msg V) s.agenda
      refine ⟨⟨insert_sorted _ _ _ hi.ok.sorted, ?_⟩, ?_, hi.early, hi.lookups, fun _ => hi.idle hs⟩
      · intro e he
        rcases List.mem_cons.mp (hp.mem_iff.mp he) with rfl | he
        · simp
        · have := hi.ok.sub e he; simp [this]
      · refine (List.Perm.append_left _ hp).trans ?_
        refine List.perm_middle.trans ?_
        exact (List.Perm.cons _ hi.perm).trans (List.perm_append_singleton _ _).symm
  | response name i r =>
    simp only [St.step] at h
    split at h
    · cases h
    · cases h; exact inv_mgrs _ hi
  | start =>
    simp only [St.step] at h
    cases hs : s.started with
    | true => rw [hs] at h; simp at h
    | false =>
      rw [hs] at h
      simp only [Bool.false_eq_true, if_false] at h
      have hb := inv_begin d hs hi
      rcases start_cases d s s' h with ⟨_, rfl⟩ | ⟨t, m, r, ha, ⟨_, rfl⟩ | h⟩
      · exact hb
      · exact hb
      · have he := scheduleNext_ext d _ _ _ _ h
        exact inv_ext he hb (fun hf => by rw [he.started] at hf; cases hf)
  | command name id =>
    rcases command_cases d s s' name id h with ⟨_, rfl⟩ | ⟨m, m', hm, ⟨_, rfl⟩ | ⟨r, hg, hs, h⟩⟩
    · exact inv_clock d hi
    · exact inv_mgrs _ (inv_clock d hi)
    · have he := scheduleNext_ext d _ _ _ _ h
      have hsch : Inv (s.asked' d name m' r id) := inv_schedule d _ _ (inv_mgrs _ (inv_clock d hi))
      refine inv_ext he hsch (fun hf => ?_)
      rw [he.started] at hf
      have : (s.asked' d name m' r id).started = s.started := by
        simp only [St.asked', St.schedule]
        rw [(clock_ext d _).started]; exact (clock_ext d s).started
      rw [this, hs] at hf; cases hf
  | tick n => simp only [St.step, Option.some.injEq] at h; subst h; exact inv_advance n hi
  | wake =>
    simp only [St.step] at h
    split at h
    · rename_i hc
      have he := handleWakeUp_ext d _ _ _ h
      have : Inv { s with pending := false } := ⟨⟨hi.ok.sorted, hi.ok.sub⟩, hi.perm, hi.early, hi.lookups, fun hf => by rw [hc.1] at hf; cases hf⟩
      exact inv_ext he this (fun hf => by rw [he.started] at hf; simp only at hf; rw [hc.1] at hf; cases hf)
    · cases h

theorem run_snoc (d : Nat → Nat) (t : Int) (evs : List (Ev V)) (ev : Ev V) (s' : St V) (h : run d t (evs ++ [ev]) = some s') :
    ∃ s, run d t evs = some s ∧ s.step d ev = some s' := by
  unfold run at h
  rw [List.foldlM_append] at h
  obtain ⟨s, h1, h2⟩ := Option.bind_eq_some_iff.mp h
  refine ⟨s, h1, ?_⟩
  simpa using h2

theorem inv_run (d : Nat → Nat) (t : Int) (evs : List (Ev V)) : ∀ s, run d t evs = some s → Inv s := by
  induction evs using List.reverseRecOn with
  | nil => intro s h; cases h; exact ⟨⟨by simp, by simp⟩, by simp, by simp, by simp [lastSent], by simp⟩
  | append_singleton evs ev ih =>
    intro s' h
    obtain ⟨s, h1, h2⟩ := run_snoc d t evs ev s' h
    exact inv_step d s s' ev (ih s h1) h2

end Verif.Sim
