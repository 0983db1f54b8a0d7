import Verif.Sim.Spec
import Mathlib.Data.List.Sort
import Mathlib.Data.List.Perm.Basic
set_option autoImplicit false
/-!
Lemmas for C91-C93.
-/
namespace Verif.Sim
variable {V : Type}

/-- Due time and message of something sent. -/
def due (e : Int × Int × Msg V) : Int × Msg V := (e.1, e.2.2)

/-- From `s` to `s'` the first entries of the agenda have been sent, in order, when they were due. -/
structure Ext (s s' : St V) : Prop where
  started : s'.started = s.started
  mgrs : s'.mgrs = s.mgrs
  asked : s'.asked = s.asked
  seen : ∃ l, s'.seen = s.seen ++ l
  now : s.now ≤ s'.now
  sent : ∃ ex, s.agenda = ex.map due ++ s'.agenda ∧ s'.sent = s.sent ++ ex ∧ (∀ e ∈ ex, e.1 ≤ e.2.1 ∧ s.now ≤ e.2.1 ∧ e.2.1 ≤ s'.now) ∧
    s'.lookups = (fun n => match lastSent n ex with
      | some v => some v
      | none => s.lookups n)

theorem lastSent_append (n : String) (a b : List (Int × Int × Msg V)) : lastSent n (a ++ b) = match lastSent n b with
    | some v => some v
    | none => lastSent n a := by
  unfold lastSent
  rw [List.reverse_append, List.find?_append]
  cases (List.find? _ b.reverse) <;> simp

theorem Ext.refl (s : St V) : Ext s s :=
  ⟨rfl, rfl, rfl, ⟨[], by simp⟩, le_refl _, [], by simp, by simp, by simp, by funext n; simp [lastSent]⟩

theorem Ext.trans {a b c : St V} (h1 : Ext a b) (h2 : Ext b c) : Ext a c := by
  obtain ⟨e1, e2, e3⟩ := h1.sent
  obtain ⟨f1, f2, f3⟩ := h2.sent
  obtain ⟨l1, hl1⟩ := h1.seen
  obtain ⟨l2, hl2⟩ := h2.seen
  refine ⟨h2.started.trans h1.started, h2.mgrs.trans h1.mgrs, h2.asked.trans h1.asked, ⟨l1 ++ l2, by rw [hl2, hl1, List.append_assoc]⟩, le_trans h1.now h2.now, e1 ++ f1, ?_, ?_, ?_, ?_⟩
  · rw [e2, f2, List.map_append, List.append_assoc]
  · rw [f3.1, e3.1, List.append_assoc]
  · intro e he
    have n1 := h1.now; have n2 := h2.now
    rcases List.mem_append.mp he with he | he
    · have := e3.2.1 e he; omega
    · have := f3.2.1 e he; omega
  · rw [f3.2.2, e3.2.2]
    funext n
    rw [lastSent_append]
    cases lastSent n f1 <;> simp

theorem fire_ext (s : St V) : Ext s s.fire := by
  unfold St.fire
  split
  · split
    · exact ⟨rfl, rfl, rfl, ⟨[], by simp⟩, le_refl _, [], by simp, by simp, by simp, by funext n; simp [lastSent]⟩
    · exact Ext.refl s
  · exact Ext.refl s

theorem advance_ext (s : St V) (n : Nat) : Ext s (s.advance n) := by
  have : Ext s { s with now := s.now + n } :=
    ⟨rfl, rfl, rfl, ⟨[], by simp⟩, by show s.now ≤ s.now + n; omega, [], by simp, by simp, by simp, by funext n; simp [lastSent]⟩
  exact this.trans (fire_ext _)

theorem fire_now (s : St V) : s.fire.now = s.now := by
  unfold St.fire; split
  · split <;> rfl
  · rfl
theorem fire_agenda (s : St V) : s.fire.agenda = s.agenda := by
  unfold St.fire; split
  · split <;> rfl
  · rfl
theorem fire_seen (s : St V) : s.fire.seen = s.seen := by
  unfold St.fire; split
  · split <;> rfl
  · rfl

theorem advance_now (s : St V) (n : Nat) : (s.advance n).now = s.now + n := by unfold St.advance; rw [fire_now]
theorem advance_agenda (s : St V) (n : Nat) : (s.advance n).agenda = s.agenda := by unfold St.advance; rw [fire_agenda]
theorem advance_seen (s : St V) (n : Nat) : (s.advance n).seen = s.seen := by unfold St.advance; rw [fire_seen]

/-- A timer that is still set is in the future. -/
theorem advance_timer (s : St V) (n : Nat) (t : Int) (h : (s.advance n).timer = some t) : s.now + n < t := by
  unfold St.advance St.fire at h
  split at h
  · rename_i u hu
    split at h
    · simp at h
    · rename_i hle
      simp only at hu hle h
      rw [hu] at h; cases h; omega
  · rename_i hu; rw [hu] at h; cases h

theorem clock_ext (d : Nat → Nat) (s : St V) : Ext s (s.clock d) := by
  refine (advance_ext s (d s.seen.length)).trans ?_
  refine ⟨rfl, rfl, rfl, ⟨[s.now + d s.seen.length], ?_⟩, le_refl _, [], by simp [St.clock], by simp [St.clock], by simp, by funext n; simp [lastSent, St.clock]⟩
  simp [St.clock, advance_seen]

theorem clock_now (d : Nat → Nat) (s : St V) : (s.clock d).now = s.now + d s.seen.length := by simp [St.clock, advance_now]
theorem clock_agenda (d : Nat → Nat) (s : St V) : (s.clock d).agenda = s.agenda := by simp [St.clock, advance_agenda]
theorem clock_seen (d : Nat → Nat) (s : St V) : (s.clock d).now ∈ (s.clock d).seen := by rw [clock_now]; simp [St.clock]
theorem clock_timer (d : Nat → Nat) (s : St V) (t : Int) (h : (s.clock d).timer = some t) : (s.clock d).now < t := by
  rw [clock_now]; exact advance_timer s _ t h

theorem send_ext (s : St V) (t : Int) (m : Msg V) (r : Agenda V) (ht : t ≤ s.now) (ha : s.agenda = (t, m) :: r) :
    Ext s { s.send t m with agenda := r } := by
  refine ⟨rfl, rfl, rfl, ⟨[], by simp [St.send]⟩, le_refl _, [(t, s.now, m)], by simp [ha, due], by simp [St.send], ?_, ?_⟩
  · intro e he; simp at he; subst he; exact ⟨ht, le_refl _, le_refl _⟩
  · funext n
    simp only [St.send, lastSent, List.reverse_singleton, List.find?_cons, List.find?_nil]
    cases hm : m.id with
    | none =>
      by_cases hn : m.name = n
      · subst hn; simp
      · have : (m.name == n) = false := by simp [hn]
        simp [this, Ne.symm hn]
    | some i => simp

theorem sendDue_agenda (now : Int) (a : Agenda V) : ∀ (s s2 : St V), (∀ b, ({ s with agenda := b } : St V) = { s2 with agenda := b }) → sendDue now a s = sendDue now a s2 := by
  induction a with
  | nil => intro s s2 h; exact h []
  | cons e a ih =>
    intro s s2 h
    obtain ⟨t, m⟩ := e
    simp only [sendDue]
    split
    · exact h _
    · apply ih
      intro b
      have h0 := h []
      simp only [St.mk.injEq] at h0
      simp only [St.send, St.mk.injEq, true_and]
      obtain ⟨a1, a2, a3, a4, a5, a6, a7, a8, a9, _⟩ := h0
      simp_all

theorem sendDue_ext (a : Agenda V) : ∀ (s : St V), s.agenda = a → Ext s (sendDue s.now a s) ∧ (sendDue s.now a s).now = s.now ∧
    (∀ e r, (sendDue s.now a s).agenda = e :: r → s.now < e.1) ∧ (sendDue s.now a s).seen = s.seen ∧ (sendDue s.now a s).timer = s.timer ∧ (sendDue s.now a s).pending = s.pending := by
  induction a with
  | nil =>
    intro s ha
    have : sendDue s.now [] s = s := by simp [sendDue, ← ha]
    rw [this]
    exact ⟨Ext.refl s, rfl, by simp [ha], rfl, rfl, rfl⟩
  | cons e a ih =>
    intro s ha
    obtain ⟨t, m⟩ := e
    simp only [sendDue]
    split
    · rename_i h
      have : ({ s with agenda := (t, m) :: a } : St V) = s := by rw [← ha]
      rw [this]
      refine ⟨Ext.refl s, rfl, ?_, rfl, rfl, rfl⟩
      intro e r hr; rw [ha] at hr; cases hr; exact h
    · rename_i h
      have := ih { s.send t m with agenda := a } rfl
      have e1 : sendDue s.now a (s.send t m) = sendDue ({ s.send t m with agenda := a } : St V).now a { s.send t m with agenda := a } :=
        sendDue_agenda _ _ _ _ (fun b => rfl)
      rw [e1]
      refine ⟨(send_ext s t m a (by omega) ha).trans this.1, this.2.1, this.2.2.1, this.2.2.2.1, this.2.2.2.2.1, this.2.2.2.2.2⟩

theorem setTimer_ext (s s' : St V) (t : Int) (h : s.setTimer t = some s') : Ext s s' := by
  unfold St.setTimer at h
  split at h
  · cases h
  · split at h <;> cases h <;> exact ⟨rfl, rfl, rfl, ⟨[], by simp⟩, le_refl _, [], by simp, by simp, by simp, by funext n; simp [lastSent]⟩

theorem scheduleNextWith_ext (d : Nat → Nat) (k : St V → Option (St V)) (hk : ∀ s s', k s = some s' → Ext s s') (t : Int) (s s' : St V)
    (h : scheduleNextWith d k t s = some s') : Ext s s' := by
  unfold scheduleNextWith at h
  split at h
  · have h2 : Ext s ((s.clock d).clock d) := (clock_ext d s).trans (clock_ext d _)
    split at h
    · rename_i x hx; cases h; exact h2.trans (setTimer_ext _ _ _ hx)
    · exact h2.trans (hk _ _ h)
  · cases h; exact clock_ext d s

theorem afterDue_ext (d : Nat → Nat) (k : St V → Option (St V)) (hk : ∀ s s', k s = some s' → Ext s s') (s s' : St V)
    (h : afterDue d k s = some s') : Ext s s' := by
  unfold afterDue at h
  split at h
  · cases h; exact Ext.refl _
  · split at h
    · exact scheduleNextWith_ext d k hk _ _ _ h
    · cases h; exact Ext.refl _

theorem handleWakeUp_ext (d : Nat → Nat) (n : Nat) : ∀ (s s' : St V), handleWakeUp d n s = some s' → Ext s s' := by
  induction n with
  | zero => intro s s' h; cases h
  | succ n ih =>
    intro s s' h
    have e := sendDue_ext (s.clock d).agenda (s.clock d) rfl
    exact (clock_ext d s).trans (e.1.trans (afterDue_ext d _ ih _ _ h))

/-! ## Every wake-up is followed by another, as long as there is something to send -/

theorem lucky_ext {s s' : St V} (h : Ext s s') (hl : Lucky s') : Lucky s := by
  intro e he
  obtain ⟨a, b, c⟩ := hl e (by rw [h.asked]; exact he)
  obtain ⟨l, hl⟩ := h.seen
  exact ⟨a, b, fun hm => c (by rw [hl]; simp [hm])⟩

/-- Sorted by time, and all of it has been asked for. -/
structure Ok (s : St V) : Prop where
  sorted : s.agenda.Pairwise (fun a b => a.1 ≤ b.1)
  sub : ∀ e ∈ s.agenda, e ∈ s.asked

theorem ok_ext {s s' : St V} (h : Ext s s') (ho : Ok s) : Ok s' := by
  obtain ⟨ex, h1, _⟩ := h.sent
  constructor
  · have := ho.sorted; rw [h1] at this; exact (List.pairwise_append.mp this).2.1
  · intro e he; rw [h.asked]; exact ho.sub e (by rw [h1]; simp [he])

theorem length_ext {s s' : St V} (h : Ext s s') : s'.agenda.length ≤ s.agenda.length := by
  obtain ⟨ex, h1, _⟩ := h.sent
  rw [h1]; simp

theorem head_le {e : Int × Msg V} {r : Agenda V} (h : (e :: r).Pairwise (fun a b => a.1 ≤ b.1)) : ∀ x ∈ e :: r, e.1 ≤ x.1 := by
  intro x hx
  rcases List.mem_cons.mp hx with rfl | hx
  · exact le_refl _
  · exact (List.pairwise_cons.mp h).1 x hx

/-- What a call of `handleWakeUp` achieves. -/
def Done (s s' : St V) : Prop := (∀ e ∈ s'.agenda, s.now < e.1) ∧ (Lucky s' → Armed s')

theorem scheduleNextWith_head (d : Nat → Nat) (k : St V → Option (St V)) (s : St V) (ho : Ok s) (t : Int) (m : Msg V) (r : Agenda V)
    (ha : s.agenda = (t, m) :: r)
    (hk : ∀ b : St V, Ok b → b.agenda = s.agenda → t ≤ b.now → ∃ s', k b = some s' ∧ (Lucky s' → Armed s')) :
    ∃ s', scheduleNextWith d k t s = some s' ∧ (Lucky s' → Armed s') := by
  unfold scheduleNextWith
  split
  · rename_i hc
    have h2 : Ext s ((s.clock d).clock d) := (clock_ext d s).trans (clock_ext d _)
    have o2 : Ok ((s.clock d).clock d) := ok_ext h2 ho
    have a2 : ((s.clock d).clock d).agenda = s.agenda := by rw [clock_agenda, clock_agenda]
    generalize hb : (s.clock d).clock d = b at *
    have bs : b.now ∈ b.seen := by rw [← hb]; exact clock_seen d _
    by_cases h1 : t - b.now < 0
    · have e1 : b.setTimer t = none := by unfold St.setTimer; rw [if_pos h1]
      rw [e1]
      exact hk b o2 a2 (by omega)
    · by_cases h0 : t - b.now = 0
      · have e1 : b.setTimer t = some { b with timer := none } := by unfold St.setTimer; rw [if_neg h1, if_pos h0]
        rw [e1]
        refine ⟨_, rfl, fun hl => ?_⟩
        have := (hl (t, m) (o2.sub _ (by rw [a2, ha]; simp))).2.2
        exact absurd (show t ∈ b.seen by rw [show t = b.now by omega]; exact bs) this
      · have e1 : b.setTimer t = some { b with timer := some t } := by unfold St.setTimer; rw [if_neg h1, if_neg h0]
        rw [e1]
        refine ⟨_, rfl, fun _ => .inr (.inr ⟨t, rfl, ?_⟩)⟩
        intro e he
        have so := o2.sorted
        simp only at he
        rw [a2, ha] at he so
        exact head_le so e he
  · rename_i hc
    refine ⟨_, rfl, fun _ => .inr (.inr ?_)⟩
    cases ht : (s.clock d).timer with
    | none => rw [ht] at hc; simp [mustSet] at hc
    | some u =>
      rw [ht] at hc
      simp [mustSet] at hc
      refine ⟨u, rfl, fun e he => ?_⟩
      rw [clock_agenda, ha] at he
      have := head_le (by have := ho.sorted; rw [ha] at this; exact this) e he
      exact le_trans hc this

theorem afterDue_done (d : Nat → Nat) (n : Nat) (s : St V) (ho : Ok s)
    (hk : ∀ b : St V, Ok b → b.agenda = s.agenda → (∃ e r, s.agenda = e :: r ∧ e.1 ≤ b.now) → ∃ s', handleWakeUp d n b = some s' ∧ (Lucky s' → Armed s')) :
    ∃ s', afterDue d (handleWakeUp d n) s = some s' ∧ (Lucky s' → Armed s') := by
  unfold afterDue
  split
  · rename_i h; exact ⟨s, rfl, fun _ => .inl h⟩
  · rename_i t m r h
    split
    · rename_i hc
      exact scheduleNextWith_head d _ s ho t m r h (fun b h1 h2 h3 => hk b h1 h2 ⟨_, _, h, h3⟩)
    · rename_i hc
      refine ⟨s, rfl, fun hl => ?_⟩
      have := hl (t, m) (ho.sub _ (by rw [h]; simp))
      exact absurd ⟨this.1, this.2.1⟩ hc

theorem handleWakeUp_armed (d : Nat → Nat) (n : Nat) : ∀ (s : St V), Ok s → (s.agenda.length < n ∨ (s.agenda.length ≤ n ∧ ∃ e r, s.agenda = e :: r ∧ e.1 ≤ s.now)) →
    ∃ s', handleWakeUp d n s = some s' ∧ (Lucky s' → Armed s') := by
  induction n with
  | zero => intro s _ h; rcases h with h | ⟨h, e, r, he, _⟩; omega; rw [he] at h; simp at h
  | succ n ih =>
    intro s ho h
    have o1 : Ok (s.clock d) := ok_ext (clock_ext d s) ho
    obtain ⟨e1, e2, e3, e4, _, _⟩ := sendDue_ext (s.clock d).agenda (s.clock d) rfl
    have o2 := ok_ext e1 o1
    have hlen : (sendDue (s.clock d).now (s.clock d).agenda (s.clock d)).agenda.length ≤ n := by
      have l1 := length_ext e1
      rw [clock_agenda] at l1
      rcases h with h | ⟨h, e, r, he, hd⟩
      · rw [clock_agenda]; omega
      · -- the first entry is sent
        obtain ⟨ex, x1, _⟩ := e1.sent
        cases ex with
        | nil =>
          simp only [List.map_nil, List.nil_append] at x1
          have := e3 e r (by rw [← x1, clock_agenda, he])
          rw [clock_now] at this; omega
        | cons y ex =>
          have := congrArg List.length x1
          rw [clock_agenda] at this
          simp at this
          rw [clock_agenda]
          rw [clock_agenda] at *
          omega
    simp only [handleWakeUp]
    refine afterDue_done d n _ o2 (fun b hb1 hb2 hb3 => ih b hb1 ?_)
    obtain ⟨e, r, hag, hd⟩ := hb3
    exact .inr ⟨by rw [hb2]; exact hlen, e, r, by rw [hb2, hag], hd⟩

end Verif.Sim
