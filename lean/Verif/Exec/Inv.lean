import Verif.Exec.Trans
import Verif.Props.Node
/-
The main invariant of executions and its preservation.
-/
namespace Verif.Exec
open Verif.Node

variable {Val Env : Type} (P : Plan Val Env)

/-! ## Facts about single decisions -/

theorem getDest_executing {t a par f c} {d : Dest} (h : getDest t a par f c = some d) (hd : d.state = .executing) :
    a = .waiting ∧ d = ⟨.executing, .none, .none⟩ := by
  cases a <;> cases t <;>
    simp only [getDest, fromInactive, fromWaiting, fromExecuting, fromFinishing, fromFailing, fromIterationEnded, fromFinished,
      abnormal, endIteration] at h <;>
    (repeat' split at h) <;>
      first
      | (cases h; done)
      | (cases h; simp at hd; done)
      | (cases h; exact ⟨rfl, rfl⟩)
      | (cases h; rename_i ha; revert ha; repeat' split) <;>
        (intro ha; first | (cases ha; done) | (cases ha; simp at hd; done))

theorem getDest_ne {t a par f c} {d : Dest} (h : getDest t a par f c = some d) (he : StateExists t a) : d.state ≠ a := by
  have := (Verif.Props.Node.C01_destination_in_diagram t a par f c d he h).1
  intro e
  rw [e] at this
  generalize hb : a = b at this
  cases this <;> simp at hb

/-- Consistency of outcome and failure type is preserved by every decision. -/
theorem consistent_step {t a par f c o} {d : Dest} (h : getDest t a par f c = some d) (he : StateExists t a)
    (hc : Consistent a o f) :
    Consistent d.state
      (if d.outcome ≠ .none then d.outcome else if (a = .iterationEnded ∧ d.state = .waiting) ∨ a = .finished then .none else o)
      (if d.outcome ≠ .none ∧ d.failure ≠ .none then d.failure
        else if (a = .iterationEnded ∧ d.state = .waiting) ∨ a = .finished then .none else f) := by
  cases a <;> cases t <;>
    first
    | (simp [StateExists] at he; done)
    | (simp only [getDest, fromInactive, fromWaiting, fromExecuting, fromFinishing, fromFailing, fromIterationEnded, fromFinished,
        abnormal, endIteration] at h
       (repeat' split at h) <;>
        first
        | (cases h; done)
        | (cases h; simp_all [Consistent]; done)
        | (cases h; simp only [Consistent] at hc ⊢; rcases hc with ⟨rfl, rfl | rfl⟩ | ⟨rfl, rfl | rfl⟩ <;> simp_all <;> done)
        | (cases h; simp only [Consistent] at hc ⊢; rcases hc with ⟨rfl, rfl⟩ | ⟨rfl, rfl⟩ | ⟨rfl, rfl | rfl | rfl⟩ <;> simp_all <;> done)
        | (cases h; rename_i ha; revert ha; repeat' split) <;>
          (intro ha; first | (cases ha; done) | (cases ha; simp_all [Consistent]; done)))

/-! ## The invariant -/

/-- `n` is about to make a decided transition. -/
def Decided (s : St Val Env) (n : NodeId) : Prop :=
  ∃ d o, decideNext P o n = some d ∧ o.st n = s.st n ∧ o.fail n = s.fail n ∧ s.nx n = some d.state ∧ s.nxO n = d.outcome ∧
    s.nxF n = d.failure ∧ (¬ (d.state = .executing ∧ acquiresResources P n = true) → o = s.base)

/-- What the log says about an event. -/
def EventOK (pre : List (Event Val Env)) : Event Val Env → Prop
  | .trans n a b o => lastState n pre .inactive = a ∧ ∃ d o', decideNext P o' n = some d ∧ d.state = b ∧ o'.st n = a ∧
      StateExists (P.node n).type a ∧ (¬ (b = .executing ∧ acquiresResources P n = true) → o' = o)
  | _ => True

def LogOK (log : List (Event Val Env)) : Prop := ∀ pre e post, log = pre ++ e :: post → EventOK P pre e

structure NInv (s : St Val Env) : Prop where
  dec : ∀ n ∈ s.change, Decided P s n
  clean : ∀ n, n ∉ s.change → s.nxO n = .none ∧ s.nxF n = .none
  pend : ∀ n ∈ s.pending, s.st n = .waiting ∧ s.nx n = some .executing ∧ acquiresResources P n = true ∧
    ∃ o, decideNext P o n = some ⟨.executing, .none, .none⟩ ∧ o.st n = s.st n ∧ o.fail n = s.fail n
  ok : ∀ n, StateExists (P.node n).type (s.st n) ∧ Consistent (s.st n) (s.out n) (s.fail n)
  held : ∀ n, (Running (s.st n) ∨ (n ∈ s.change ∧ s.nx n = some .executing)) → ∀ r ∈ resources P n, s.holder r = some n
  hist : ∀ n, lastState n s.log .inactive = s.st n
  log : LogOK P s.log

variable {P}

theorem NInv.congr {s s' : St Val Env} (h : NInv P s) (h1 : s'.st = s.st) (h2 : s'.out = s.out) (h3 : s'.fail = s.fail)
    (h4 : s'.nx = s.nx) (h5 : s'.nxO = s.nxO) (h6 : s'.nxF = s.nxF) (h7 : s'.change = s.change) (h8 : s'.pending = s.pending)
    (h9 : s'.holder = s.holder) (h10 : s'.log = s.log) (h11 : s'.base = s.base) : NInv P s' := by
  obtain ⟨g1, g2, g3, g4, g5, g6, g7⟩ := h
  constructor <;> simp only [Decided, h1, h2, h3, h4, h5, h6, h7, h8, h9, h10, h11] at * <;> assumption

theorem NInv.qframe {s s' : St Val Env} (h : NInv P s) (hf : QFrame s s') : NInv P s' := by
  obtain ⟨q, c, e, rfl⟩ := hf
  exact h.congr rfl rfl rfl rfl rfl rfl rfl rfl rfl rfl rfl

theorem lastState_append (n : NodeId) (l l' : List (Event Val Env)) (a : NState) :
    lastState n (l ++ l') a = lastState n l' (lastState n l a) := by
  induction l generalizing a with
  | nil => rfl
  | cons e l ih => cases e <;> exact ih _

theorem LogOK.snoc {log : List (Event Val Env)} {e : Event Val Env} (h : LogOK P log) (he : EventOK P log e) :
    LogOK P (log ++ [e]) := by
  intro pre e' post heq
  rcases List.eq_nil_or_concat post with rfl | ⟨post', x, rfl⟩
  · have := List.append_inj' heq rfl
    obtain ⟨rfl, h2⟩ := this
    simp at h2; subst h2; exact he
  · have h2 : log ++ [e] = (pre ++ e' :: post') ++ [x] := by rw [heq]; simp
    have := List.append_inj' h2 rfl
    exact h pre e' post' this.1

/-- Events that are not transitions. -/
def NoTrans : Event Val Env → Prop
  | .trans .. => False
  | _ => True

theorem LogOK.append {log l : List (Event Val Env)} (h : LogOK P log) (hl : ∀ e ∈ l, NoTrans e) : LogOK P (log ++ l) := by
  induction l generalizing log with
  | nil => simpa using h
  | cons e l ih =>
    have : log ++ e :: l = (log ++ [e]) ++ l := by simp
    rw [this]
    refine ih (h.snoc ?_) (fun e' h' => hl e' (by simp [h']))
    have := hl e (by simp)
    cases e <;> first | exact trivial | exact this.elim

theorem lastState_noTrans (n : NodeId) (l : List (Event Val Env)) (a : NState) (hl : ∀ e ∈ l, NoTrans e) : lastState n l a = a := by
  induction l with
  | nil => rfl
  | cons e l ih =>
    have := hl e (by simp)
    cases e <;> first | exact this.elim | exact ih (fun e' h' => hl e' (by simp [h']))

/-- Resource operations of node `n` keep the invariant if `n` keeps what it must hold. -/
theorem NInv.reff {s s' : St Val Env} {n : NodeId} (h : NInv P s) (hf : RFrame s s') (he : REff P n s s')
    (hn : (Running (s.st n) ∨ (n ∈ s.change ∧ s.nx n = some .executing)) → ∀ r ∈ resources P n, s'.holder r = some n) : NInv P s' := by
  have hh := he.holder
  obtain ⟨q, ho, w, e, rfl⟩ := hf
  refine ⟨h.dec, h.clean, h.pend, h.ok, ?_, h.hist, h.log⟩
  intro k hk r hr
  by_cases e : k = n
  · subst e; exact hn hk r hr
  · exact (hh r k e).2 (h.held k hk r hr)

variable (P) in
/-- The whole invariant, without phases. -/
structure Inv (s : St Val Env) : Prop where
  Q : QInv P s
  N : NInv P s

theorem Inv.notify {s : St Val Env} (h : Inv P s) (n) : Inv P (notify n s) := ⟨h.Q.notify n, h.N.qframe (notify_frame n s)⟩
theorem Inv.notifyAll {s : St Val Env} (h : Inv P s) (ns) : Inv P (notifyAll ns s) :=
  ⟨h.Q.notifyAll ns, h.N.qframe (notifyAll_frame ns s)⟩

/-! ## Elementary queue operations -/

theorem QInv.setQ {s : St Val Env} (h : QInv P s) {n : NodeId} {x : QStatus} (h1 : s.q n ≠ .check) (h2 : x ≠ .check)
    (h3 : n ∈ s.change → x ≠ .none ∧ x ≠ .delete) (h4 : n ∈ s.pending → IsPend x)
    (h5 : x = .transition ∨ x = .transitionCheck → n ∈ s.change) (h6 : IsTry x → n ∈ s.pending) :
    QInv P { s with q := set s.q n x } := by
  constructor
  · exact h.candNodup
  · intro k
    show k ∈ s.cand ↔ set s.q n x k = .check
    rw [h.candIff, set_apply]
    split
    · rename_i e; subst e; simp [h1, h2]
    · exact Iff.rfl
  · exact h.changeNodup
  · exact h.pendingNodup
  · intro k hk
    show set s.q n x k ≠ _ ∧ set s.q n x k ≠ _ ∧ set s.q n x k ≠ _
    rw [set_apply]
    split
    · rename_i e; subst e; exact ⟨(h3 hk).1, h2, (h3 hk).2⟩
    · exact h.changeQ k hk
  · exact h.disj
  · intro k hk
    show IsPend (set s.q n x k)
    rw [set_apply]
    split
    · rename_i e; subst e; exact h4 hk
    · exact h.pendQ k hk
  · intro k hk
    change set s.q n x k = _ ∨ set s.q n x k = _ at hk
    rw [set_apply] at hk
    split at hk
    · rename_i e; subst e; exact h5 hk
    · exact h.transIn k hk
  · intro k hk
    change IsTry (set s.q n x k) at hk
    rw [set_apply] at hk
    split at hk
    · rename_i e; subst e; exact h6 hk
    · exact h.tryIn k hk
  · exact h.waitIn
  · exact h.waitNodup
  · exact h.noInternal

theorem QInv.none_out {s : St Val Env} (h : QInv P s) {n : NodeId} (hq : s.q n = .none) :
    n ∉ s.cand ∧ n ∉ s.change ∧ n ∉ s.pending := by
  refine ⟨?_, ?_, ?_⟩
  · rw [h.candIff, hq]; simp
  · intro hc; exact (h.changeQ n hc).1 hq
  · intro hc; have := h.pendQ n hc; rw [hq] at this; exact this

theorem QInv.addStateChange {s : St Val Env} (h : QInv P s) {n : NodeId} (hq : s.q n = .none) : QInv P (addStateChange n s) := by
  obtain ⟨_, hch, hp⟩ := h.none_out hq
  unfold Exec.addStateChange
  rw [if_pos hq]
  constructor
  · exact h.candNodup
  · intro k
    show k ∈ s.cand ↔ set s.q n _ k = .check
    rw [h.candIff, set_apply]
    split
    · rename_i e; subst e; simp [hq]
    · exact Iff.rfl
  · show (s.change ++ [n]).Nodup
    rw [List.nodup_append]
    refine ⟨h.changeNodup, by simp, ?_⟩
    intro a ha b hb; simp at hb; subst hb; intro e; subst e; exact hch ha
  · exact h.pendingNodup
  · intro k hk
    show set s.q n _ k ≠ _ ∧ set s.q n _ k ≠ _ ∧ set s.q n _ k ≠ _
    rw [set_apply]
    split
    · simp
    · rename_i e
      rcases List.mem_append.1 hk with hk | hk
      · exact h.changeQ k hk
      · simp at hk; exact absurd hk e
  · intro k hk
    rcases List.mem_append.1 hk with hk | hk
    · exact h.disj k hk
    · simp at hk; subst hk; exact hp
  · intro k hk
    show IsPend (set s.q n _ k)
    rw [set_apply]
    split
    · rename_i e; subst e; exact absurd hk hp
    · exact h.pendQ k hk
  · intro k hk
    change set s.q n _ k = _ ∨ set s.q n _ k = _ at hk
    rw [set_apply] at hk
    split at hk
    · rename_i e; subst e; exact List.mem_append_right _ (by simp)
    · exact List.mem_append_left _ (h.transIn k hk)
  · intro k hk
    change IsTry (set s.q n _ k) at hk
    rw [set_apply] at hk
    split at hk
    · exact hk.elim
    · exact h.tryIn k hk
  · exact h.waitIn
  · exact h.waitNodup
  · exact h.noInternal

theorem mem_insertPending (n k : NodeId) (l : List NodeId) : k ∈ insertPending P n l ↔ k = n ∨ k ∈ l := by
  induction l with
  | nil => simp [insertPending]
  | cons m l ih =>
    simp only [insertPending]
    split
    · simp
    · simp only [List.mem_cons, ih]
      constructor
      · rintro (h | h | h) <;> simp [h]
      · rintro (h | h | h) <;> simp [h]

theorem nodup_insertPending (n : NodeId) (l : List NodeId) (h : l.Nodup) (hn : n ∉ l) : (insertPending P n l).Nodup := by
  induction l with
  | nil => simp [insertPending]
  | cons m l ih =>
    simp only [insertPending]
    obtain ⟨h1, h2⟩ := List.nodup_cons.1 h
    split
    · exact List.nodup_cons.2 ⟨hn, h⟩
    · refine List.nodup_cons.2 ⟨?_, ih h2 (fun hc => hn (by simp [hc]))⟩
      rw [mem_insertPending]
      rintro (e | e)
      · subst e; exact hn (by simp)
      · exact h1 e

theorem QInv.addPending {s : St Val Env} (h : QInv P s) {n : NodeId} (hq : s.q n = .none) : QInv P (addPending P n s) := by
  obtain ⟨hc, hch, hp⟩ := h.none_out hq
  unfold Exec.addPending
  constructor
  · exact h.candNodup
  · intro k
    show k ∈ s.cand ↔ set s.q n _ k = .check
    rw [h.candIff, set_apply]
    split
    · rename_i e; subst e; simp [hq]
    · exact Iff.rfl
  · exact h.changeNodup
  · exact nodup_insertPending n s.pending h.pendingNodup hp
  · intro k hk
    show set s.q n _ k ≠ _ ∧ set s.q n _ k ≠ _ ∧ set s.q n _ k ≠ _
    rw [set_apply]
    split
    · simp
    · exact h.changeQ k hk
  · intro k hk hm
    rcases (mem_insertPending n k s.pending).1 hm with e | e
    · subst e; exact hch hk
    · exact h.disj k hk e
  · intro k hk
    show IsPend (set s.q n _ k)
    rw [set_apply]
    split
    · trivial
    · rename_i e
      rcases (mem_insertPending n k s.pending).1 hk with e' | e'
      · exact absurd e' e
      · exact h.pendQ k e'
  · intro k hk
    change set s.q n _ k = _ ∨ set s.q n _ k = _ at hk
    rw [set_apply] at hk
    split at hk
    · simp at hk
    · exact h.transIn k hk
  · intro k hk
    change IsTry (set s.q n _ k) at hk
    rw [set_apply] at hk
    refine (mem_insertPending n k s.pending).2 ?_
    split at hk
    · rename_i e; exact .inl e
    · exact .inr (h.tryIn k hk)
  · intro r k hk
    obtain ⟨h1, h2⟩ := h.waitIn r k hk
    exact ⟨(mem_insertPending n k s.pending).2 (.inr h1), h2⟩
  · exact h.waitNodup
  · exact h.noInternal

theorem removePending_fields (n) (s : St Val Env) :
    ∃ w, removePending P n s = { s with pending := s.pending.erase n, q := set s.q n .none, waiters := w } ∧
      (∀ r k, k ∈ w r → k ∈ s.waiters r) ∧ (∀ r k, k ≠ n → k ∈ s.waiters r → k ∈ w r) ∧
      ((∀ r, (s.waiters r).Nodup) → (∀ r, (w r).Nodup) ∧ ∀ r ∈ resources P n, n ∉ w r) := by
  unfold removePending
  generalize hs : ({ s with pending := s.pending.erase n, q := set s.q n .none } : St Val Env) = s1
  have hw : s1.waiters = s.waiters := by rw [← hs]
  obtain ⟨q, ho, w, e, hfr⟩ := releaseReservations_frame P n s1
  have h1 := releaseReservations_q P n s1
  have h2 := releaseReservations_holder P n s1
  have h3 := releaseReservations_err P n s1
  have heff := releaseReservations_eff P n s1
  refine ⟨w, ?_, ?_, ?_, ?_⟩
  · rw [hfr]
    rw [hfr] at h1 h2 h3
    simp only at h1 h2 h3
    rw [h1, h2, h3, ← hs]
  · intro r k hk
    have hkk := hk
    have : k ∈ (releaseReservations P n s1).waiters r := by rw [hfr]; exact hk
    clear heff hfr h1 h2 h3 hk
    rw [← hw]
    unfold releaseReservations at this
    generalize resources P n = rs at this
    clear hs hw
    induction rs generalizing s1 with
    | nil => exact this
    | cons r' rs ih =>
      have := ih (removeWaiter r' n s1) this
      simp only [removeWaiter, set_apply] at this
      split at this
      · rename_i e; subst e; exact List.mem_of_mem_erase this
      · exact this
  · intro r k hn hk
    have := heff.waitersKeep r k hn (by rw [hw]; exact hk)
    rw [hfr] at this; exact this
  · intro hnd
    rw [← hw] at hnd
    refine ⟨?_, ?_⟩
    · have := heff.nodup hnd
      rw [hfr] at this; exact this
    · intro r hr
      have := releaseReservations_waiters P n s1 hnd r hr
      rw [hfr] at this; exact this

theorem QInv.removePending {s : St Val Env} (h : QInv P s) {n : NodeId} (hn : n ∈ s.pending) : QInv P (removePending P n s) := by
  obtain ⟨w, heq, hw1, hw2, hw3⟩ := removePending_fields (P := P) n s
  obtain ⟨hw3, hw4⟩ := hw3 h.waitNodup
  have hq := h.pendQ n hn
  rw [heq]
  have hc : n ∉ s.change := fun hc => h.disj n hc hn
  have herase : ∀ k, k ∈ s.pending.erase n ↔ k ≠ n ∧ k ∈ s.pending := fun k => h.pendingNodup.mem_erase_iff
  constructor
  · exact h.candNodup
  · intro k
    show k ∈ s.cand ↔ set s.q n _ k = .check
    rw [h.candIff, set_apply]
    split
    · rename_i e; subst e
      constructor
      · intro e; rw [e] at hq; exact hq.elim
      · intro e; cases e
    · exact Iff.rfl
  · exact h.changeNodup
  · exact h.pendingNodup.erase n
  · intro k hk
    show set s.q n _ k ≠ _ ∧ set s.q n _ k ≠ _ ∧ set s.q n _ k ≠ _
    rw [set_apply]
    split
    · rename_i e; subst e; exact absurd hk hc
    · exact h.changeQ k hk
  · intro k hk hm
    exact h.disj k hk ((herase k).1 hm).2
  · intro k hk
    show IsPend (set s.q n _ k)
    obtain ⟨h1, h2⟩ := (herase k).1 hk
    rw [set_apply, if_neg h1]
    exact h.pendQ k h2
  · intro k hk
    change set s.q n _ k = _ ∨ set s.q n _ k = _ at hk
    rw [set_apply] at hk
    split at hk
    · simp at hk
    · exact h.transIn k hk
  · intro k hk
    change IsTry (set s.q n _ k) at hk
    rw [set_apply] at hk
    split at hk
    · exact hk.elim
    · rename_i e
      exact (herase k).2 ⟨e, h.tryIn k hk⟩
  · intro r k hk
    obtain ⟨h1, h2⟩ := h.waitIn r k (hw1 r k hk)
    refine ⟨(herase k).2 ⟨?_, h1⟩, h2⟩
    intro e; subst e; exact hw4 r h2 hk
  · exact hw3
  · exact h.noInternal

end Verif.Exec
