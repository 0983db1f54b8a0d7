import Verif.Exec.Replay
/-
An Assignment node waits until its assignment has been made, and, when failing, until it has been undone.
-/
namespace Verif.Exec
open Verif.Node

variable {Val Env : Type} {P : Plan Val Env}

/-- How far the assignment of `n` has come: `none` not started, `some false` started, `some true` made. -/
def made (n : NodeId) : List (Event Val Env) → Option Bool → Option Bool
  | [], x => x
  | .start m _ :: r, x => made n r (if m = n then some false else x)
  | .assign m _ :: r, x => made n r (if m = n then x.map fun _ => true else x)
  | _ :: r, x => made n r x

/-- How far the undoing has come: `none` never failing, `some false` failing, `some true` undone. -/
def undone (n : NodeId) : List (Event Val Env) → Option Bool → Option Bool
  | [], x => x
  | .trans m _ b _ :: r, x => undone n r (if m = n ∧ b = .failing then some false else x)
  | .retract m _ :: r, x => undone n r (if m = n then x.map fun _ => true else x)
  | _ :: r, x => undone n r x

theorem made_append (n) (l l' : List (Event Val Env)) (x) : made n (l ++ l') x = made n l' (made n l x) := by
  induction l generalizing x with
  | nil => rfl
  | cons e l ih => cases e <;> exact ih _
theorem undone_append (n) (l l' : List (Event Val Env)) (x) : undone n (l ++ l') x = undone n l' (undone n l x) := by
  induction l generalizing x with
  | nil => rfl
  | cons e l ih => cases e <;> exact ih _

theorem made_spec (n) {l : List (Event Val Env)} {x} (h : made n l x = some true) :
    (∃ A o B v, l = A ++ .start n o :: B ∧ (∀ o2, .start n o2 ∉ B) ∧ .assign n v ∈ B) ∨
      ((∀ o2, .start n o2 ∉ l) ∧ (x = some true ∨ (x ≠ none ∧ ∃ v, .assign n v ∈ l))) := by
  induction l generalizing x with
  | nil => exact .inr ⟨by simp, .inl h⟩
  | cons e l ih =>
    have lift : ∀ y, made n l y = some true → (∀ o2, e ≠ .start n o2) → (y = x ∨ ((∃ v, e = .assign n v) ∧ y = x.map fun _ => true)) →
        (∃ A o B v, e :: l = A ++ .start n o :: B ∧ (∀ o2, .start n o2 ∉ B) ∧ .assign n v ∈ B) ∨
      ((∀ o2, .start n o2 ∉ e :: l) ∧ (x = some true ∨ (x ≠ none ∧ ∃ v, .assign n v ∈ e :: l))) := by
      intro y hy hne hyx
      rcases ih hy with ⟨A, o, B, v, rfl, h2, h3⟩ | ⟨h1, h2⟩
      · exact .inl ⟨e :: A, o, B, v, rfl, h2, h3⟩
      · refine .inr ⟨fun o2 hm => ?_, ?_⟩
        · rcases List.mem_cons.1 hm with hm | hm
          · exact hne o2 hm.symm
          · exact h1 o2 hm
        · rcases hyx with rfl | ⟨⟨v, rfl⟩, rfl⟩
          · rcases h2 with h2 | ⟨h2, v, hv⟩
            · exact .inl h2
            · exact .inr ⟨h2, v, by simp [hv]⟩
          · refine .inr ⟨?_, v, by simp⟩
            rintro rfl
            rcases h2 with h2 | h2 <;> simp at h2
    cases e with
    | start m o =>
      simp only [made] at h
      by_cases hm : m = n
      · subst hm
        rw [if_pos rfl] at h
        rcases ih h with ⟨A, o', B, v, rfl, h2, h3⟩ | ⟨h1, h2 | ⟨_, v, hv⟩⟩
        · exact .inl ⟨.start m o :: A, o', B, v, rfl, h2, h3⟩
        · simp at h2
        · exact .inl ⟨[], o, l, v, rfl, h1, hv⟩
      · rw [if_neg hm] at h
        exact lift x h (by simp [hm]) (.inl rfl)
    | assign m v =>
      simp only [made] at h
      by_cases hm : m = n
      · subst hm
        rw [if_pos rfl] at h
        exact lift _ h (by simp) (.inr ⟨⟨v, rfl⟩, rfl⟩)
      · rw [if_neg hm] at h
        exact lift x h (by simp) (.inl rfl)
    | _ => exact lift x h (by simp) (.inl rfl)

theorem undone_spec (n) {l : List (Event Val Env)} {x} (h : undone n l x = some true) :
    (∃ A a o B v, l = A ++ .trans n a .failing o :: B ∧ (∀ a2 o2, .trans n a2 .failing o2 ∉ B) ∧ .retract n v ∈ B) ∨
      ((∀ a2 o2, .trans n a2 .failing o2 ∉ l) ∧ (x = some true ∨ (x ≠ none ∧ ∃ v, .retract n v ∈ l))) := by
  induction l generalizing x with
  | nil => exact .inr ⟨by simp, .inl h⟩
  | cons e l ih =>
    have lift : ∀ y, undone n l y = some true → (∀ a2 o2, e ≠ .trans n a2 .failing o2) →
        (y = x ∨ ((∃ v, e = .retract n v) ∧ y = x.map fun _ => true)) →
        (∃ A a o B v, e :: l = A ++ .trans n a .failing o :: B ∧ (∀ a2 o2, .trans n a2 .failing o2 ∉ B) ∧ .retract n v ∈ B) ∨
      ((∀ a2 o2, .trans n a2 .failing o2 ∉ e :: l) ∧ (x = some true ∨ (x ≠ none ∧ ∃ v, .retract n v ∈ e :: l))) := by
      intro y hy hne hyx
      rcases ih hy with ⟨A, a, o, B, v, rfl, h2, h3⟩ | ⟨h1, h2⟩
      · exact .inl ⟨e :: A, a, o, B, v, rfl, h2, h3⟩
      · refine .inr ⟨fun a2 o2 hm => ?_, ?_⟩
        · rcases List.mem_cons.1 hm with hm | hm
          · exact hne a2 o2 hm.symm
          · exact h1 a2 o2 hm
        · rcases hyx with rfl | ⟨⟨v, rfl⟩, rfl⟩
          · rcases h2 with h2 | ⟨h2, v, hv⟩
            · exact .inl h2
            · exact .inr ⟨h2, v, by simp [hv]⟩
          · refine .inr ⟨?_, v, by simp⟩
            rintro rfl
            rcases h2 with h2 | h2 <;> simp at h2
    cases e with
    | trans m a b o =>
      simp only [undone] at h
      by_cases hm : m = n ∧ b = .failing
      · rw [if_pos hm] at h
        obtain ⟨rfl, rfl⟩ := hm
        rcases ih h with ⟨A, a', o', B, v, rfl, h2, h3⟩ | ⟨h1, h2 | ⟨_, v, hv⟩⟩
        · exact .inl ⟨.trans m a .failing o :: A, a', o', B, v, rfl, h2, h3⟩
        · simp at h2
        · exact .inl ⟨[], a, o, l, v, rfl, h1, hv⟩
      · rw [if_neg hm] at h
        refine lift x h ?_ (.inl rfl)
        intro a2 o2 he
        cases he
        exact hm ⟨rfl, rfl⟩
    | retract m v =>
      simp only [undone] at h
      by_cases hm : m = n
      · subst hm
        rw [if_pos rfl] at h
        exact lift _ h (by simp) (.inr ⟨⟨v, rfl⟩, rfl⟩)
      · rw [if_neg hm] at h
        exact lift x h (by simp) (.inl rfl)
    | _ => exact lift x h (by simp) (.inl rfl)

theorem made_move (k n a b) (base o : Obs Val Env) (x) :
    made k (moveEvents n a b base o) x = if b = .executing ∧ n = k then some false else x := by
  unfold moveEvents
  by_cases h : b = .executing
  · by_cases h2 : n = k <;> simp [h, h2, made]
  · simp [h, made]
theorem undone_move (k n a b) (base o : Obs Val Env) (x) :
    undone k (moveEvents n a b base o) x = if b = .failing ∧ n = k then some false else x := by
  unfold moveEvents
  by_cases h : b = .failing
  · by_cases h2 : n = k <;> simp [h, h2, undone]
  · by_cases h3 : b = .executing
    · simp [h3, undone]
    · simp [h, h3, undone]

/-- What the log says about assignments so far. -/
structure WLog (P : Plan Val Env) (log : List (Event Val Env)) : Prop where
  exec : ∀ pre n b o post, (P.node n).type = .assignment → log = pre ++ .trans n .executing b o :: post → made n pre none = some true
  failing : ∀ pre n b o post, (P.node n).type = .assignment → log = pre ++ .trans n .failing b o :: post → undone n pre none = some true

theorem WLog.append {log l : List (Event Val Env)} (h : WLog P log) (hl : ∀ e ∈ l, NoTrans e) : WLog P (log ++ l) := by
  have key : ∀ pre n a b o post, log ++ l = pre ++ (.trans n a b o : Event Val Env) :: post → ∃ post', log = pre ++ .trans n a b o :: post' := by
    intro pre n a b o post heq
    rcases List.append_eq_append_iff.1 heq with ⟨c, h1, h2⟩ | ⟨c, h1, h2⟩
    · exfalso
      have := hl (.trans n a b o) (by rw [h2]; simp)
      exact this
    · cases c with
      | nil =>
        simp at h2
        exfalso
        exact hl (.trans n a b o) (by rw [← h2]; simp)
      | cons e c =>
        simp at h2
        obtain ⟨rfl, _⟩ := h2
        exact ⟨c, h1⟩
  constructor
  · intro pre n b o post ht heq
    obtain ⟨post', hp⟩ := key _ _ _ _ _ _ heq
    exact h.exec _ _ _ _ _ ht hp
  · intro pre n b o post ht heq
    obtain ⟨post', hp⟩ := key _ _ _ _ _ _ heq
    exact h.failing _ _ _ _ _ ht hp

theorem WLog.move {log : List (Event Val Env)} (h : WLog P log) {n a b base o}
    (h1 : (P.node n).type = .assignment → a = .executing → made n log none = some true)
    (h2 : (P.node n).type = .assignment → a = .failing → undone n log none = some true) : WLog P (log ++ moveEvents n a b base o) := by
  have hs : WLog P (log ++ [.trans n a b base]) := by
    have key : ∀ pre m a' b' o' post, log ++ [.trans n a b base] = pre ++ (.trans m a' b' o' : Event Val Env) :: post →
        (∃ post', log = pre ++ .trans m a' b' o' :: post') ∨ (pre = log ∧ m = n ∧ a' = a) := by
      intro pre m a' b' o' post heq
      rcases List.eq_nil_or_concat post with rfl | ⟨post', x, rfl⟩
      · have := List.append_inj' heq rfl
        obtain ⟨rfl, h2⟩ := this
        simp at h2
        exact .inr ⟨rfl, h2.1.symm, h2.2.1.symm⟩
      · have h2 : log ++ [.trans n a b base] = (pre ++ .trans m a' b' o' :: post') ++ [x] := by rw [heq]; simp
        exact .inl ⟨post', (List.append_inj' h2 rfl).1⟩
    constructor
    · intro pre m b' o' post ht heq
      rcases key _ _ _ _ _ _ heq with ⟨post', hp⟩ | ⟨rfl, rfl, ha⟩
      · exact h.exec _ _ _ _ _ ht hp
      · exact h1 ht ha.symm
    · intro pre m b' o' post ht heq
      rcases key _ _ _ _ _ _ heq with ⟨post', hp⟩ | ⟨rfl, rfl, ha⟩
      · exact h.failing _ _ _ _ _ ht hp
      · exact h2 ht ha.symm
  have : log ++ moveEvents n a b base o = (log ++ [.trans n a b base]) ++ (if b = .executing then [.start n o] else []) := by
    simp [moveEvents]
  rw [this]
  refine hs.append ?_
  intro e he
  rw [mem_ite_singleton] at he
  rw [he.2]; trivial

/-- The invariant. -/
structure WInv (P : Plan Val Env) (s : St Val Env) : Prop where
  run : ∀ n, (P.node n).type = .assignment → s.st n = .executing ∨ s.st n = .failing → made n s.log none ≠ none
  ack : ∀ n, (P.node n).type = .assignment → s.ack n = true → made n s.log none = some true
  fl : ∀ n, (P.node n).type = .assignment → s.st n = .failing → undone n s.log none ≠ none
  ab : ∀ n, (P.node n).type = .assignment → s.abort n = true → undone n s.log none = some true
  log : WLog P s.log

theorem WInv.congr {s s' : St Val Env} (h : WInv P s) (h1 : s'.st = s.st) (h2 : s'.ack = s.ack) (h3 : s'.abort = s.abort)
    (h4 : s'.log = s.log) : WInv P s' := by
  obtain ⟨g1, g2, g3, g4, g5⟩ := h
  constructor <;> simp only [h1, h2, h3, h4] at * <;> assumption

theorem WInv.assignExec {s : St Val Env} (h : WInv P s) (n) : WInv P (assignExec P s n) := by
  have hl : (Exec.assignExec P s n).log = s.log ++ [.assign n (s.fixed n)] := (assignExec_fields s n).1
  have hst : (Exec.assignExec P s n).st = s.st := by unfold Exec.assignExec; simp
  have hack : (Exec.assignExec P s n).ack = if s.st n = .executing then set s.ack n true else s.ack := by unfold Exec.assignExec; simp
  have hab : (Exec.assignExec P s n).abort = s.abort := by unfold Exec.assignExec; simp
  have hm : ∀ k, made k (Exec.assignExec P s n).log none = if n = k then (made k s.log none).map (fun _ => true) else made k s.log none := by
    intro k; rw [hl, made_append]; rfl
  have hu : ∀ k, undone k (Exec.assignExec P s n).log none = undone k s.log none := by
    intro k; rw [hl, undone_append]; rfl
  constructor
  · intro k ht hk
    rw [hst] at hk; rw [hm]
    have := h.run k ht hk
    split
    · intro e; simp at e; exact this e
    · exact this
  · intro k ht hk
    rw [hm]
    rw [hack] at hk
    by_cases hkn : n = k
    · subst hkn
      rw [if_pos rfl]
      split at hk
      · rename_i he
        have := h.run n ht (.inl he)
        cases hx : made n s.log none with
        | none => exact absurd hx this
        | some b => rfl
      · rw [h.ack n ht hk]; rfl
    · rw [if_neg hkn]
      refine h.ack k ht ?_
      split at hk
      · simpa [set, Ne.symm hkn] using hk
      · exact hk
  · intro k ht hk; rw [hst] at hk; rw [hu]; exact h.fl k ht hk
  · intro k ht hk; rw [hab] at hk; rw [hu]; exact h.ab k ht hk
  · rw [hl]; exact h.log.append (by simp [NoTrans])

theorem WInv.assignRetract {s : St Val Env} (h : WInv P s) (n) : WInv P (assignRetract P s n) := by
  have hl : (Exec.assignRetract P s n).log = s.log ++ [.retract n (s.saved (P.node n).dest)] := (assignRetract_fields s n).1
  have hst : (Exec.assignRetract P s n).st = s.st := by unfold Exec.assignRetract; simp
  have hack : (Exec.assignRetract P s n).ack = s.ack := by unfold Exec.assignRetract; simp
  have hab : (Exec.assignRetract P s n).abort = if s.st n = .failing then set s.abort n true else s.abort := by
    unfold Exec.assignRetract; simp
  have hu : ∀ k, undone k (Exec.assignRetract P s n).log none =
      if n = k then (undone k s.log none).map (fun _ => true) else undone k s.log none := by
    intro k; rw [hl, undone_append]; rfl
  have hm : ∀ k, made k (Exec.assignRetract P s n).log none = made k s.log none := by
    intro k; rw [hl, made_append]; rfl
  constructor
  · intro k ht hk; rw [hst] at hk; rw [hm]; exact h.run k ht hk
  · intro k ht hk; rw [hack] at hk; rw [hm]; exact h.ack k ht hk
  · intro k ht hk
    rw [hst] at hk; rw [hu]
    have := h.fl k ht hk
    split
    · intro e; simp at e; exact this e
    · exact this
  · intro k ht hk
    rw [hu]
    rw [hab] at hk
    by_cases hkn : n = k
    · subst hkn
      rw [if_pos rfl]
      split at hk
      · rename_i he
        have := h.fl n ht he
        cases hx : undone n s.log none with
        | none => exact absurd hx this
        | some b => rfl
      · rw [h.ab n ht hk]; rfl
    · rw [if_neg hkn]
      refine h.ab k ht ?_
      split at hk
      · simpa [set, Ne.symm hkn] using hk
      · exact hk
  · rw [hl]; exact h.log.append (by simp [NoTrans])

/-- Output that is neither an assignment nor a retraction nor a move. -/
def PlainOut : Event Val Env → Prop
  | .assign .. | .retract .. | .start .. | .trans .. => False
  | _ => True

theorem made_plain (n) (l : List (Event Val Env)) (x) (h : ∀ e ∈ l, PlainOut e) : made n l x = x := by
  induction l with
  | nil => rfl
  | cons e l ih =>
    have := h e (by simp)
    cases e <;> first | exact this.elim | exact ih (fun e' h' => h e' (by simp [h']))
theorem undone_plain (n) (l : List (Event Val Env)) (x) (h : ∀ e ∈ l, PlainOut e) : undone n l x = x := by
  induction l with
  | nil => rfl
  | cons e l ih =>
    have := h e (by simp)
    cases e <;> first | exact this.elim | exact ih (fun e' h' => h e' (by simp [h']))

theorem WInv.plain {s s' : St Val Env} {l} (h : WInv P s) (h1 : s'.st = s.st) (h2 : s'.ack = s.ack) (h3 : s'.abort = s.abort)
    (h4 : s'.log = s.log ++ l) (hl : ∀ e ∈ l, PlainOut e) : WInv P s' := by
  have hm : ∀ k, made k s'.log none = made k s.log none := by intro k; rw [h4, made_append, made_plain _ _ _ hl]
  have hu : ∀ k, undone k s'.log none = undone k s.log none := by intro k; rw [h4, undone_append, undone_plain _ _ _ hl]
  constructor
  · intro k ht hk; rw [h1] at hk; rw [hm]; exact h.run k ht hk
  · intro k ht hk; rw [h2] at hk; rw [hm]; exact h.ack k ht hk
  · intro k ht hk; rw [h1] at hk; rw [hu]; exact h.fl k ht hk
  · intro k ht hk; rw [h3] at hk; rw [hu]; exact h.ab k ht hk
  · rw [h4]; exact h.log.append fun e he => by have := hl e he; cases e <;> first | exact this.elim | trivial

theorem WInv.finishStep {s : St Val Env} (h : WInv P s) (acc rej) : WInv P (finishStep P acc rej s) := by
  have f1 : ∀ (l : List NodeId) (s : St Val Env), WInv P s → WInv P (l.foldl (Exec.assignExec P) s) := by
    intro l; induction l with
    | nil => intro s h; exact h
    | cons n l ih => intro s h; exact ih _ (h.assignExec n)
  have f2 : ∀ (l : List NodeId) (s : St Val Env), WInv P s → WInv P (l.foldl (Exec.assignRetract P) s) := by
    intro l; induction l with
    | nil => intro s h; exact h
    | cons n l ih => intro s h; exact ih _ (h.assignRetract n)
  unfold Exec.finishStep performAssignments
  simp only
  have h1 := f1 s.asg s h
  generalize s.asg.foldl (Exec.assignExec P) s = x at *
  have h2 := f2 x.ret { x with asg := [] } (h1.congr rfl rfl rfl rfl)
  generalize x.ret.foldl (Exec.assignRetract P) { x with asg := [] } = y at *
  refine h2.plain (l := acc.map (fun n => Event.command n (y.fixed n)) ++ rej.map Event.deny ++
      y.aborts.map Event.abort ++ y.upds.map (fun n => Event.update n (y.fixed n)) ++
      [.stepDone (outbound acc rej { y with ret := [] }).obs]) rfl rfl rfl (by simp [outbound]) ?_
  intro e he
  simp only [List.mem_append, List.mem_map, List.mem_singleton] at he
  rcases he with (((⟨_, _, rfl⟩ | ⟨_, _, rfl⟩) | ⟨_, _, rfl⟩) | ⟨_, _, rfl⟩) | rfl <;> trivial

/-- The observations made at the beginning of a micro step were right about the nodes still to move. -/
def WBase (P : Plan Val Env) (s : St Val Env) : Prop :=
  ∀ n ∈ s.change, (P.node n).type = .assignment →
    (s.base.ack n = true → made n s.log none = some true) ∧ (s.base.abort n = true → undone n s.log none = some true)

theorem transOne_abort {s : St Val Env} (h : Inv P s) {n rest} (hc : s.change = n :: rest) {d : NState} (hd : s.nx n = some d) :
    (transOne P n { s with change := rest }).abort =
      if d = .failing ∧ (P.node n).type = .assignment then set s.abort n false else s.abort := by
  have hin : n ∈ s.change := by rw [hc]; simp
  obtain ⟨d', o, hd', hst, hf, hnx, hnxO, hnxF, hbase⟩ := h.N.dec n hin
  rw [hd] at hnx; cases hnx
  obtain ⟨hex, hcons⟩ := h.N.ok n
  have hd2 : getDest (P.node n).type (s.st n) (parentState P o n) (s.fail n) (conds P o n) = some d' := by
    rw [← hst, ← hf]; exact hd'
  have hne := getDest_ne hd2 hex
  unfold Exec.transOne
  simp only
  split
  · refine Eq.trans (transition_abort P n _ d'.state ?_ ?_) ?_
    · exact hd
    · exact hne
    · rfl
  · refine Eq.trans (transition_abort P n _ d'.state ?_ ?_) ?_
    · exact hd
    · exact hne
    · rfl

theorem assignment_waits {o : Obs Val Env} {n} {d : Dest} (ht : (P.node n).type = .assignment) (h : decideNext P o n = some d) :
    (o.st n = .executing → o.ack n = true) ∧ (o.st n = .failing → o.abort n = true) := by
  unfold decideNext at h
  constructor
  · intro hs
    simp only [hs, getDest, fromExecuting, ht] at h
    split at h
    · rename_i hx
      simpa [conds, ht, isT] using hx
    · cases h
  · intro hs
    simp only [hs, getDest, fromFailing, ht] at h
    split at h
    · rename_i hx
      simpa [conds, ht, isT] using hx
    · cases h

theorem WInv.transOne {s : St Val Env} (hI : Inv P s) (h : WInv P s) (hB : WBase P s) {n rest} (hc : s.change = n :: rest) :
    WInv P (transOne P n { s with change := rest }) ∧ WBase P (transOne P n { s with change := rest }) := by
  obtain ⟨d, o, oo, hd, hos, hnx, hdiag, hob, e1, e2, e3, e4, e5, e6, e7, e8, e9, e10, e11, e12, e13⟩ := transOne_fields hI hc
  have hab := transOne_abort hI hc hnx
  generalize Exec.transOne P n { s with change := rest } = s' at *
  have hin : n ∈ s.change := by rw [hc]; simp
  have hnr : n ∉ rest := by
    have := hI.Q.changeNodup; rw [hc] at this; exact (List.nodup_cons.1 this).1
  have hm : ∀ k, made k s'.log none = if d.state = .executing ∧ n = k then some false else made k s.log none := by
    intro k; rw [e2, made_append, made_move]
  have hu : ∀ k, undone k s'.log none = if d.state = .failing ∧ n = k then some false else undone k s.log none := by
    intro k; rw [e2, undone_append, undone_move]
  have hnot : s.st n = .executing ∨ s.st n = .failing → o = s.base := by
    intro hs
    apply hob
    rintro ⟨he, _⟩
    have := (decide_state hd he).1
    rw [hos] at this
    rcases hs with hs | hs <;> rw [this] at hs <;> cases hs
  have hfin : (P.node n).type = .assignment → s.st n = .executing → made n s.log none = some true := by
    intro ht hs
    have := (assignment_waits ht hd).1 (by rw [hos]; exact hs)
    rw [hnot (.inl hs)] at this
    exact (hB n hin ht).1 this
  have hfin2 : (P.node n).type = .assignment → s.st n = .failing → undone n s.log none = some true := by
    intro ht hs
    have := (assignment_waits ht hd).2 (by rw [hos]; exact hs)
    rw [hnot (.inr hs)] at this
    exact (hB n hin ht).2 this
  refine ⟨⟨?_, ?_, ?_, ?_, ?_⟩, ?_⟩
  · intro k ht hk
    rw [hm]
    by_cases hx : d.state = .executing ∧ n = k
    · simp [hx]
    · rw [if_neg hx]
      rw [e1] at hk
      by_cases hkn : k = n
      · subst hkn
        simp only [set, if_true] at hk
        rcases hk with hk | hk
        · exact absurd ⟨hk, rfl⟩ hx
        · have hse : s.st k = .executing := by
            rw [hk, ht] at hdiag
            generalize s.st k = x at hdiag
            cases hdiag
            · rfl
            · rename_i h; rcases h with h | h <;> cases h
          exact h.run k ht (.inl hse)
      · simp only [set, hkn, if_false] at hk
        exact h.run k ht hk
  · intro k ht hk
    rw [hm]
    rw [e10] at hk
    by_cases hx : d.state = .executing ∧ n = k
    · obtain ⟨hx1, rfl⟩ := hx
      simp [hx1, set] at hk
    · rw [if_neg hx]
      refine h.ack k ht ?_
      split at hk
      · rename_i he
        have : k ≠ n := fun e => hx ⟨he, e.symm⟩
        simpa [set, this] using hk
      · exact hk
  · intro k ht hk
    rw [hu]
    by_cases hx : d.state = .failing ∧ n = k
    · simp [hx]
    · rw [if_neg hx]
      rw [e1] at hk
      by_cases hkn : k = n
      · subst hkn
        simp only [set, if_true] at hk
        exact absurd ⟨hk, rfl⟩ hx
      · simp only [set, hkn, if_false] at hk
        exact h.fl k ht hk
  · intro k ht hk
    rw [hu]
    rw [hab] at hk
    by_cases hx : d.state = .failing ∧ n = k
    · obtain ⟨hx1, rfl⟩ := hx
      simp [hx1, ht, set] at hk
    · rw [if_neg hx]
      refine h.ab k ht ?_
      split at hk
      · rename_i he
        have : k ≠ n := fun e => hx ⟨he.1, e.symm⟩
        simpa [set, this] using hk
      · exact hk
  · rw [e2]; exact h.log.move hfin hfin2
  · intro k hk ht
    rw [e11] at hk
    have hkn : n ≠ k := fun e => hnr (e ▸ hk)
    rw [e12, hm, hu, if_neg (by simp [hkn]), if_neg (by simp [hkn])]
    exact hB k (by rw [hc]; simp [hk]) ht

theorem WInv.base {s : St Val Env} (h : WInv P s) (hb : s.obs = s.base) : WBase P s := by
  intro n _ ht
  rw [← hb]
  exact ⟨h.ack n ht, h.ab n ht⟩

theorem Reach.winv {ph : Phase} {s : St Val Env} (h : Reach P ph s) : WInv P s ∧ (ph = .trans → WBase P s) := by
  induction h with
  | init vars env =>
    refine ⟨⟨?_, ?_, ?_, ?_, ⟨?_, ?_⟩⟩, by simp⟩ <;> intros <;> simp_all [Exec.init]
  | @step ph ph' s s' hr hs ih =>
    obtain ⟨hI, hid, hchk⟩ := hr.inv
    obtain ⟨h1, h2⟩ := ih
    cases hs with
    | ext _ e ns => exact ⟨h1.congr (by simp) (by simp) (by simp) (by simp), by simp⟩
    | ackUpd _ n =>
      unfold ackUpdate
      split
      · rename_i hx
        refine ⟨?_, by simp⟩
        constructor
        · simpa using h1.run
        · intro k ht hk
          simp only [notifyAll_ack, notifyAll_log] at hk ⊢
          refine h1.ack k ht ?_
          have : k ≠ n := by rintro rfl; rw [hx.1] at ht; cases ht
          simpa [set, this] using hk
        · simpa using h1.fl
        · simpa using h1.ab
        · simpa using h1.log
      · exact ⟨h1, by simp⟩
    | deletePlans _ => exact ⟨h1.congr rfl rfl rfl rfl, by simp⟩
    | begin _ => exact ⟨h1.congr rfl rfl rfl rfl, by simp⟩
    | check _ n rest hc =>
      obtain ⟨e1, _, _, _, _, _, e7, e8, _, _, _, _, _, _, _, e16, e17⟩ := (checkOne_frame (P := P) n rest s).fields
      exact ⟨h1.congr e1 e7 e8 e16, by simp⟩
    | resolve _ hc hne =>
      obtain ⟨e1, _, _, _, _, _, e7, e8, _, _, _, _, _, _, _, e16, e17⟩ := (resolve_frame (P := P) s).fields
      have hb := hchk rfl
      refine ⟨h1.congr e1 e7 e8 e16, fun _ => ?_⟩
      intro n _ ht
      rw [e17, e16, ← hb]
      exact ⟨h1.ack n ht, h1.ab n ht⟩
    | trans _ n rest hc =>
      obtain ⟨g1, g2⟩ := h1.transOne hI (h2 rfl) hc
      exact ⟨g1, fun _ => g2⟩
    | again _ hc hn hne => exact ⟨h1.congr rfl rfl rfl rfl, by simp⟩
    | finishQuiet _ acc rej hc hne hp =>
      obtain ⟨e1, _, _, _, _, _, e7, e8, _, _, _, _, _, _, _, e16, e17⟩ := (resolve_frame (P := P) s).fields
      exact ⟨(h1.congr e1 e7 e8 e16).finishStep _ _, by simp⟩
    | finish _ acc rej hc hne hp => exact ⟨h1.finishStep _ _, by simp⟩

end Verif.Exec
