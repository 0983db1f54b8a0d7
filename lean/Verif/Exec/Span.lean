import Verif.Exec.SyncRun
/-
The part of a synchronous execution from a transition on.
-/
set_option autoImplicit false
set_option linter.unusedSimpArgs false
namespace Verif.Exec
open Verif.Node

variable {Val Env : Type} {P : Plan Val Env}

/-- A node that changes does what the rules say. -/
theorem SyncStep.moved {o : Obs Val Env} {B B'} {t : Picture} (h : SyncStep P o B t B') {k : NodeId} (hk : (t k).1 ≠ o.st k) :
    t k = synchronousNext P o k ∧ ∃ d, decideNext P o k = some d ∧ d.state = (t k).1 := by
  rcases h.1 k with g | ⟨g, _⟩
  · refine ⟨g, ?_⟩
    unfold synchronousNext at g
    cases hd : decideNext P o k with
    | none => rw [hd] at g; exact absurd (by rw [g]) hk
    | some d => rw [hd] at g; exact ⟨d, rfl, by rw [g]⟩
  · exact absurd (by rw [g]; rfl) hk

/-- What may become of a node in one step. -/
theorem SyncStep.cases {o : Obs Val Env} {B B'} {t : Picture} (h : SyncStep P o B t B') (k : NodeId) :
    (t k = picture o k ∧ (decideNext P o k = none ∨ B' k ∨ (o.st k = .inactive ∧ (P.node k).anc = []))) ∨
    ∃ d, decideNext P o k = some d ∧ d.state = (t k).1 ∧ t k = synchronousNext P o k := by
  rcases h.1 k with g | ⟨g, g'⟩
  · cases hd : decideNext P o k with
    | none => left; rw [g, synchronousNext_none hd]; exact ⟨rfl, .inl rfl⟩
    | some d => right; refine ⟨d, rfl, ?_, g⟩; rw [g]; unfold synchronousNext; rw [hd]
  · left; exact ⟨g, .inr g'⟩

/-- A node that is not decided to move stays as it is. -/
theorem SyncStep.stay {o : Obs Val Env} {B B'} {t : Picture} (h : SyncStep P o B t B') {k : NodeId} (hk : decideNext P o k = none) :
    t k = picture o k := by
  rcases h.cases k with ⟨g, _⟩ | ⟨d, g, _⟩
  · exact g
  · rw [hk] at g; cases g

/-- A node with a parent that is not waiting for resources does what the rules say. -/
theorem SyncStep.moves {o : Obs Val Env} {B B'} {t : Picture} (h : SyncStep P o B t B') {k : NodeId} {d : Dest} (hd : decideNext P o k = some d)
    (hr : (P.node k).anc ≠ []) (hb : ¬ B' k) : t k = synchronousNext P o k := by
  rcases h.1 k with g | ⟨_, g | ⟨_, g⟩⟩
  · exact g
  · exact absurd g hb
  · exact absurd g hr

/-- States and outcomes of nodes fit in a synchronous execution. -/
theorem SyncRun.ok {L : List (Event Val Env)} {t : Picture} {B} (h : SyncRun P L t B) (k : NodeId) :
    StateExists (P.node k).type (t k).1 ∧ Consistent (t k).1 (t k).2.1 (t k).2.2 := by
  induction h with
  | start => exact ⟨by cases (P.node k).type <;> simp [StateExists], by simp [Consistent]⟩
  | @step L o t B B' ms _ hs _ _ ih =>
    rcases hs.cases k with ⟨g, _⟩ | ⟨d, hd, h1, h2⟩
    · rw [g]; exact ih
    · have h3 := consistent_step hd ih.1 ih.2
      refine ⟨?_, ?_⟩
      · rw [← h1]; exact (Verif.Props.Node.C01_destination_in_diagram _ _ _ _ _ d ih.1 hd).2
      · rw [h2]; unfold synchronousNext; rw [hd]; exact h3

/-- A step of a synchronous execution in which node `n` goes from `a` to `b`, taken in situation `o`, leading to `t` and `B'`. -/
def Starts (P : Plan Val Env) (n : NodeId) (a b : NState) (o : Obs Val Env) (t : Picture) (B' : NodeId → Prop) : Prop :=
  ∃ L B, SyncRun P L (picture o) B ∧ SyncStep P o B t B' ∧ a = o.st n ∧ b = (t n).1

/-- What happens after a step described by `S`, as long as `p` does not become WAITING and transitions are made in situations satisfying `U`:
the transitions since then, and the situation reached. -/
inductive Since (P : Plan Val Env) (p : NodeId) (U : Obs Val Env → Prop) (S : Picture → (NodeId → Prop) → Prop) :
    List (Event Val Env) → Picture → (NodeId → Prop) → Prop
  | base {t B} : S t B → Since P p U S [] t B
  | step {L o B t B'} (ms : List NodeId) : Since P p U S L (picture o) B → SyncStep P o B t B' → (o.st p ≠ .waiting → (t p).1 ≠ .waiting) →
      (ms ≠ [] → U o) → (∀ n, n ∈ ms ↔ (t n).1 ≠ o.st n) → Since P p U S (L ++ report o t ms) t B'

/-- Splitting a list at one of its elements. -/
theorem append_split {α : Type} {A B C D : List α} {e : α} (h : A ++ B = C ++ e :: D) :
    (∃ D', A = C ++ e :: D' ∧ D = D' ++ B) ∨ (∃ C', C = A ++ C' ∧ B = C' ++ e :: D) := by
  rcases List.append_eq_append_iff.1 h with ⟨l, h1, h2⟩ | ⟨l, h1, h2⟩
  · exact .inr ⟨l, h1, h2⟩
  · cases l with
    | nil => right; refine ⟨[], by simpa using h1.symm, by simpa using h2.symm⟩
    | cons x l => simp only [List.cons_append, List.cons.injEq] at h2; obtain ⟨rfl, rfl⟩ := h2; exact .inl ⟨l, h1, rfl⟩

theorem mem_report {o o' : Obs Val Env} {t : Picture} {ms : List NodeId} {n a b} :
    .trans n a b o' ∈ report o t ms ↔ n ∈ ms ∧ a = o.st n ∧ b = (t n).1 ∧ o' = o := by
  unfold report
  constructor
  · intro h
    obtain ⟨m, hm1, hm2⟩ := List.mem_map.1 h
    simp only [Event.trans.injEq] at hm2
    obtain ⟨rfl, k1, k2, k3⟩ := hm2
    exact ⟨hm1, k1.symm, k2.symm, k3.symm⟩
  · rintro ⟨h, rfl, rfl, rfl⟩
    exact List.mem_map.2 ⟨n, h, rfl⟩

theorem SyncRun.since {L : List (Event Val Env)} {t : Picture} {B} (h : SyncRun P L t B) {p n : NodeId} {U : Obs Val Env → Prop} {L0 L1 a b o1}
    (hL : L = L0 ++ .trans n a b o1 :: L1) (hw : ∀ a o, .trans p a .waiting o ∉ L1) (hU : ∀ n a b o, .trans n a b o ∈ L1 → U o) :
    ∃ L', Since P p U (Starts P n a b o1) L' t B ∧ (∀ k c d o, .trans k c d o ∈ L1 → o = o1 ∨ .trans k c d o ∈ L') ∧ ∀ e ∈ L', e ∈ L1 := by
  induction h generalizing L0 L1 with
  | start => simp at hL
  | @step L o t B B' ms hr hs hnd hm ih =>
    rcases append_split hL with ⟨L1', h1, h2⟩ | ⟨L0', h1, h2⟩
    · obtain ⟨L', i1, i2, i3⟩ := ih h1 (fun a o' hx => hw a o' (by rw [h2]; simp [hx])) (fun n a b o' hx => hU n a b o' (by rw [h2]; simp [hx]))
      refine ⟨_, .step ms i1 hs ?_ ?_ hm, ?_, ?_⟩
      · intro hne e
        have hne' : (t p).1 ≠ o.st p := by rw [e]; exact fun e' => hne e'.symm
        exact hw (o.st p) o (by rw [h2]; exact List.mem_append.2 (.inr (mem_report.2 ⟨(hm p).2 hne', rfl, e.symm, rfl⟩)))
      · intro hne
        obtain ⟨m, ms', rfl⟩ := List.exists_cons_of_ne_nil hne
        exact hU m (o.st m) (t m).1 o (by rw [h2]; simp [report])
      · intro k c d o' hx
        rw [h2] at hx
        rcases List.mem_append.1 hx with hx | hx
        · rcases i2 k c d o' hx with g | g
          · exact .inl g
          · right; simp [g]
        · right; simp [hx]
      · intro e he
        rw [h2]
        rcases List.mem_append.1 he with he | he
        · exact List.mem_append.2 (.inl (i3 e he))
        · exact List.mem_append.2 (.inr he)
    · have : .trans n a b o1 ∈ report o t ms := by rw [h2]; simp
      obtain ⟨_, k1, k2, rfl⟩ := mem_report.1 this
      refine ⟨[], .base ⟨L, B, hr, hs, k1, k2⟩, fun k c d o' hx => .inl ?_, (fun e he => by cases he)⟩
      have : .trans k c d o' ∈ report o1 t ms := by rw [h2]; simp [hx]
      exact (mem_report.1 this).2.2.2

/-- At any moment, the history up to a transition is that of a synchronous execution and a part of the step the transition belongs to. -/
theorem ReachN.eventAt (hN : Notifies P) (hT : TreeOK P) {ph : Phase} {s : St Val Env} (h : ReachN P ph s) {n a b o A C}
    (he : s.log = A ++ .trans n a b o :: C) :
    ∃ L t ms B B', SyncRun P L (picture o) B ∧ SyncStep P o B t B' ∧ a = o.st n ∧ b = (t n).1 ∧ a ≠ b ∧ transitions A = L ++ report o t ms ∧
      (∀ k ∈ ms, (t k).1 ≠ o.st k) := by
  have hs := h.synced hN hT
  have hlog : transitions s.log = transitions A ++ .trans n a b o :: transitions C := by rw [he, transitions_append]; rfl
  have main : ∀ {L : List (Event Val Env)} {t : Picture} {B}, SyncRun P L t B → ∀ {A C}, L = A ++ .trans n a b o :: C →
      ∃ L t ms B B', SyncRun P L (picture o) B ∧ SyncStep P o B t B' ∧ a = o.st n ∧ b = (t n).1 ∧ a ≠ b ∧ A = L ++ report o t ms ∧
      (∀ k ∈ ms, (t k).1 ≠ o.st k) := by
    intro L t B hr
    induction hr with
    | start => intro A C hL; simp at hL
    | @step L o' t B B' ms hr hs hnd hm ih =>
      intro A C hL
      rcases append_split hL with ⟨C', h1, h2⟩ | ⟨A', h1, h2⟩
      · exact ih h1
      · have h2' := h2
        unfold report at h2'
        obtain ⟨ms1, ms2, hms, e1, e2⟩ := List.map_eq_append_iff.1 h2'
        obtain ⟨m, ms3, rfl, e3, e4⟩ := List.map_eq_cons_iff.1 e2
        cases e3
        exact ⟨L, t, ms1, B, B', hr, hs, rfl, rfl, fun e => (hm n).1 (by rw [hms]; simp) e.symm, by rw [h1, ← e1]; rfl,
          fun k hk => (hm k).1 (by rw [hms]; simp [hk])⟩
  by_cases hp : ph = .trans
  · obtain ⟨L, ms, B, B', h1, h2, h3, h4, h5, h7, _⟩ := hs.2 hp
    rw [h3] at hlog
    rcases append_split hlog with ⟨C', g1, g2⟩ | ⟨A', g1, g2⟩
    · exact main h1 g1
    · have h2' := g2
      unfold report at h2'
      obtain ⟨ms1, ms2, hms, e1, e2⟩ := List.map_eq_append_iff.1 h2'
      obtain ⟨m, ms3, rfl, e3, e4⟩ := List.map_eq_cons_iff.1 e2
      cases e3
      exact ⟨L, goal P s, ms1, B, B', h1, h2, rfl, rfl, fun e => (h5 n).1 (by simp [hms]) e.symm, by rw [g1, ← e1]; rfl,
        fun k hk => (h5 k).1 (by simp [hms, hk])⟩
  · obtain ⟨B, hB, _⟩ := hs.1 hp
    exact main hB hlog

/-- Each reported transition is part of a step of a synchronous execution, taken in the situation it names. -/
theorem ReachN.event (hN : Notifies P) (hT : TreeOK P) {ph : Phase} {s : St Val Env} (h : ReachN P ph s) {n a b o} (he : .trans n a b o ∈ s.log) :
    ∃ L t B B', SyncRun P L (picture o) B ∧ SyncStep P o B t B' ∧ a = o.st n ∧ b = (t n).1 ∧ a ≠ b := by
  obtain ⟨A, C, he⟩ := List.append_of_mem he
  obtain ⟨L, t, ms, B, B', h1, h2, h3, h4, h5, _⟩ := h.eventAt hN hT he
  exact ⟨L, t, B, B', h1, h2, h3, h4, h5⟩

theorem transitions_cons_trans {n a b} {o : Obs Val Env} {l : List (Event Val Env)} : transitions (.trans n a b o :: l) = .trans n a b o :: transitions l := rfl

theorem mem_transitions' {e : Event Val Env} {l : List (Event Val Env)} (h : e ∈ transitions l) : e ∈ l := by
  induction l with
  | nil => cases h
  | cons x l ih =>
    cases x with
    | trans n a b o =>
      rcases List.mem_cons.1 (show e ∈ Event.trans n a b o :: transitions l from h) with rfl | h
      · simp
      · simp [ih h]
    | _ => exact List.mem_cons_of_mem _ (ih h)

/-- The situation in which a node `m` makes a transition after `n` made one: the same step, or later. -/
theorem ReachN.since (hN : Notifies P) (hT : TreeOK P) {ph : Phase} {s : St Val Env} (h : ReachN P ph s) {p n m : NodeId} {U : Obs Val Env → Prop}
    {L0 L1 L2 o1 a b o2 a' b'} (he : s.log = L0 ++ .trans n a b o1 :: (L1 ++ .trans m a' b' o2 :: L2))
    (hw : ∀ a o, .trans p a .waiting o ∉ L1) (hU : ∀ n a b o, .trans n a b o ∈ L1 → U o) :
    ∃ L t B B', SyncRun P L (picture o2) B ∧ SyncStep P o2 B t B' ∧ a' = o2.st m ∧ b' = (t m).1 ∧ a' ≠ b' ∧
      ((o2 = o1 ∧ a = o1.st n ∧ b = (t n).1 ∧ ∀ k c d o, .trans k c d o ∈ L1 → o = o1) ∨
      ∃ L', Since P p U (Starts P n a b o1) L' (picture o2) B ∧
        (∀ k c d o, .trans k c d o ∈ L1 → o = o1 ∨ .trans k c d o ∈ L' ∨ (o = o2 ∧ c = o2.st k ∧ d = (t k).1)) ∧ ∀ e ∈ L', e ∈ L1) := by
  obtain ⟨L, t, ms, B, B', h1, h2, h3, h4, h5, h6, h7⟩ := h.eventAt hN hT (A := L0 ++ .trans n a b o1 :: L1) (C := L2)
    (by rw [he, List.append_assoc]; rfl)
  refine ⟨L, t, B, B', h1, h2, h3, h4, h5, ?_⟩
  rw [transitions_append, transitions_cons_trans] at h6
  rcases append_split h6.symm with ⟨D', g1, g2⟩ | ⟨C', g1, g2⟩
  · right
    obtain ⟨L', i1, i2, i3⟩ := h1.since g1 (p := p) (U := U) (fun a o' hx => hw a o' (mem_transitions.1 (by rw [g2]; exact List.mem_append.2 (.inl hx))))
      fun n a b o' hx => hU n a b o' (mem_transitions.1 (by rw [g2]; exact List.mem_append.2 (.inl hx)))
    refine ⟨L', i1, fun k c d o hx => ?_, fun e he => ?_⟩
    rotate_left
    · have := i3 e he
      have hm : e ∈ transitions L1 := by rw [g2]; exact List.mem_append.2 (.inl this)
      exact mem_transitions' hm
    have hx := mem_transitions.2 hx
    rw [g2] at hx
    rcases List.mem_append.1 hx with hx | hx
    · rcases i2 k c d o hx with g | g
      · exact .inl g
      · exact .inr (.inl g)
    · obtain ⟨_, e1, e2, e3⟩ := mem_report.1 hx
      exact .inr (.inr ⟨e3, e1, e2⟩)
  · left
    have : .trans n a b o1 ∈ report o2 t ms := by rw [g2]; simp
    obtain ⟨_, e1, e2, e3⟩ := mem_report.1 this
    refine ⟨e3.symm, by rw [e3]; exact e1, e2, fun k c d o hx => ?_⟩
    have : .trans k c d o ∈ report o2 t ms := by rw [g2]; simp [mem_transitions.2 hx]
    rw [(mem_report.1 this).2.2.2, e3]

/-- In particular it is after a step of a synchronous execution, so states and outcomes fit. -/
theorem Since.ok {p n : NodeId} {U : Obs Val Env → Prop} {a b o1} {L : List (Event Val Env)} {t : Picture} {B}
    (h : Since P p U (Starts P n a b o1) L t B) (k : NodeId) :
    StateExists (P.node k).type (t k).1 ∧ Consistent (t k).1 (t k).2.1 (t k).2.2 := by
  have step : ∀ {o : Obs Val Env} {B t B'}, SyncStep P o B t B' → (StateExists (P.node k).type (picture o k).1 ∧
      Consistent (picture o k).1 (picture o k).2.1 (picture o k).2.2) → StateExists (P.node k).type (t k).1 ∧ Consistent (t k).1 (t k).2.1 (t k).2.2 := by
    intro o B t B' hs ih
    rcases hs.cases k with ⟨g, _⟩ | ⟨d, hd, h1, h2⟩
    · rw [g]; exact ih
    · have h3 := consistent_step hd ih.1 ih.2
      refine ⟨?_, ?_⟩
      · rw [← h1]; exact (Verif.Props.Node.C01_destination_in_diagram _ _ _ _ _ d ih.1 hd).2
      · rw [h2]; unfold synchronousNext; rw [hd]; exact h3
  induction h with
  | base hS => obtain ⟨L, B, h1, h2, _⟩ := hS; exact step h2 (h1.ok k)
  | step ms _ hs _ _ _ ih => exact step hs ih

theorem Since.notWaiting {p : NodeId} {U : Obs Val Env → Prop} {S} (hS : ∀ t B, S t B → (t p).1 ≠ .waiting) {L : List (Event Val Env)} {t : Picture} {B}
    (h : Since P p U S L t B) : (t p).1 ≠ .waiting := by
  induction h with
  | base h => exact hS _ _ h
  | step ms _ _ h _ _ ih => exact h ih

end Verif.Exec
