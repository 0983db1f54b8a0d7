import Verif.Exec.Output
/-
What the log says about the start of micro steps, and who can hold resources.
-/
namespace Verif.Exec
open Verif.Node

variable {Val Env : Type} {P : Plan Val Env}

/-- Every transition of a node was decided in a situation `o` such that since then only other nodes, in the same micro step, made
transitions. -/
def BaseOK (log : List (Event Val Env)) : Prop :=
  ∀ pre n a b o post, log = pre ++ .trans n a b o :: post →
    ∃ pre0 mid, pre = pre0 ++ mid ∧ MicroSeg pre0 mid o ∧ ∀ m a' b' o', .trans m a' b' o' ∈ mid → m ≠ n

/-- The current micro step. -/
def Now (s : St Val Env) : Prop :=
  ∃ pre0 mid, s.log = pre0 ++ mid ∧ MicroSeg pre0 mid s.base ∧ ∀ m a' b' o', .trans m a' b' o' ∈ mid → m ∉ s.change

theorem BaseOK.append {l l' : List (Event Val Env)} (h : BaseOK l) (hl : ∀ e ∈ l', NoTrans e) : BaseOK (l ++ l') := by
  intro pre n a b o post heq
  rcases List.append_eq_append_iff.1 heq with ⟨c, hc1, hc2⟩ | ⟨c, hc1, hc2⟩
  · -- the event would be in `l'`
    exact (hl (.trans n a b o) (by rw [hc2]; simp)).elim
  · cases c with
    | nil =>
      simp only [List.append_nil, List.nil_append] at hc1 hc2
      exact (hl (.trans n a b o) (by rw [← hc2]; simp)).elim
    | cons e c =>
      simp only [List.cons_append, List.cons.injEq] at hc2
      obtain ⟨rfl, _⟩ := hc2
      exact h pre n a b o c hc1

theorem BaseOK.move {l : List (Event Val Env)} (h : BaseOK l) {n a b base oo}
    (hb : ∃ pre0 mid, l = pre0 ++ mid ∧ MicroSeg pre0 mid base ∧ ∀ m a' b' o', .trans m a' b' o' ∈ mid → m ≠ n) :
    BaseOK (l ++ moveEvents n a b base oo) := by
  have h1 : BaseOK (l ++ [.trans n a b base]) := by
    intro pre n' a' b' o' post heq
    rcases List.eq_nil_or_concat post with rfl | ⟨post', x, rfl⟩
    · have := List.append_inj' heq rfl
      obtain ⟨rfl, h2⟩ := this
      simp only [List.cons.injEq, Event.trans.injEq, and_true] at h2
      obtain ⟨rfl, _, _, rfl⟩ := h2
      exact hb
    · have h2 : l ++ [.trans n a b base] = (pre ++ .trans n' a' b' o' :: post') ++ [x] := by rw [heq]; simp
      exact h pre n' a' b' o' post' (List.append_inj' h2 rfl).1
  have h2 := h1.append (l' := if b = .executing then [.start n oo] else [])
    (by intro e he; rw [mem_ite_singleton] at he; rw [he.2]; trivial)
  unfold moveEvents
  simpa using h2

theorem MicroSeg.move {pre0 mid : List (Event Val Env)} {o : Obs Val Env} (h : MicroSeg pre0 mid o) (n a b oo) :
    MicroSeg pre0 (mid ++ moveEvents n a b o oo) o := by
  have hm : ∀ e ∈ moveEvents n a b o oo, e = .trans n a b o ∨ e = .start n oo := by
    intro e he
    unfold moveEvents at he
    rcases List.mem_cons.1 he with rfl | he
    · exact .inl rfl
    · rw [mem_ite_singleton] at he; exact .inr he.2
  refine ⟨h.st, ?_, ?_⟩
  · intro e he
    rcases List.mem_append.1 he with he | he
    · exact h.moves e he
    · rcases hm e he with rfl | rfl <;> trivial
  · intro m a' b' o' he
    rcases List.mem_append.1 he with he | he
    · exact h.same m a' b' o' he
    · rcases hm _ he with he | he
      · cases he; rfl
      · cases he

theorem mem_move {m n : NodeId} {a b a' b' o o' oo} (he : (Event.trans m a' b' o' : Event Val Env) ∈ moveEvents n a b o oo) : m = n := by
  unfold moveEvents at he
  rcases List.mem_cons.1 he with he | he
  · cases he; rfl
  · rw [mem_ite_singleton] at he; cases he.2

theorem finishStep_log (s : St Val Env) (acc rej) : ∃ l, (finishStep P acc rej s).log = s.log ++ l ∧ ∀ e ∈ l, NoTrans e := by
  obtain ⟨a1, a2, a3, a4, a5, a6, a7, a8, a9, a10⟩ := assignAll_fields (P := P) s.asg s
  generalize hx : s.asg.foldl (Exec.assignExec P) s = x at *
  obtain ⟨b1, b2, b3, b5, b6, b7, b8, b9, b10, b11⟩ := retractAll_fields (P := P) x.ret { x with asg := [] }
  generalize hy : x.ret.foldl (Exec.assignRetract P) { x with asg := [] } = y at *
  simp only at b1 b2 b3 b5 b6 b7 b8 b9 b10 b11
  have hfin : Exec.finishStep P acc rej s =
      { outbound acc rej { y with ret := [] } with
        log := (outbound acc rej { y with ret := [] }).log ++ [.stepDone (outbound acc rej { y with ret := [] }).obs] } := by
    unfold Exec.finishStep performAssignments
    simp only [hx, hy]
  refine ⟨(s.asg.map fun n => .assign n (s.fixed n)) ++ (x.ret.map fun n => .retract n (x.saved (P.node n).dest)) ++
      (acc.map fun n => .command n (y.fixed n)) ++ rej.map .deny ++ y.aborts.map .abort ++
      (y.upds.map fun n => .update n (y.fixed n)) ++ [.stepDone (outbound acc rej { y with ret := [] }).obs], ?_, ?_⟩
  · rw [hfin]; simp [outbound, b1, a1]
  · intro e he
    simp only [List.mem_append, List.mem_map, List.mem_singleton] at he
    rcases he with (((((⟨_, _, rfl⟩ | ⟨_, _, rfl⟩) | ⟨_, _, rfl⟩) | ⟨_, _, rfl⟩) | ⟨_, _, rfl⟩) | ⟨_, _, rfl⟩) | rfl <;> trivial

theorem Reach.baseOK {ph : Phase} {s : St Val Env} (h : Reach P ph s) : BaseOK s.log ∧ (ph = .trans → Now s) := by
  induction h with
  | init vars env => exact ⟨by intro pre n a b o post h; simp [Exec.init] at h, by simp⟩
  | @step ph ph' s s' hr hs ih =>
    obtain ⟨hI, hid, hchk⟩ := hr.inv
    obtain ⟨h1, h2⟩ := ih
    cases hs with
    | ext _ e ns => exact ⟨by rw [notifyAll_log]; exact h1, by simp⟩
    | ackUpd _ n =>
      unfold ackUpdate
      split
      · exact ⟨by rw [notifyAll_log]; exact h1, by simp⟩
      · exact ⟨h1, by simp⟩
    | deletePlans _ => exact ⟨h1, by simp⟩
    | begin _ => exact ⟨h1, by simp⟩
    | check _ n rest hc =>
      obtain ⟨_, _, _, _, _, _, _, _, _, _, _, _, _, _, _, e16, e17⟩ := (checkOne_frame (P := P) n rest s).fields
      rw [e16]; exact ⟨h1, by simp⟩
    | resolve _ hc hne =>
      obtain ⟨_, _, _, _, _, _, _, _, _, _, _, _, _, _, _, e16, e17⟩ := (resolve_frame (P := P) s).fields
      refine ⟨by rw [e16]; exact h1, fun _ => ⟨s.log, [], by rw [e16]; simp, ⟨?_, by simp, by simp⟩, by simp⟩⟩
      intro k
      rw [e17, ← hchk rfl]
      exact (hI.N.hist k).symm
    | trans _ n rest hc =>
      obtain ⟨d, o, oo, _, _, _, _, _, _, e2, _, _, _, _, _, _, _, _, e11, e12, _⟩ := transOne_fields hI hc
      obtain ⟨p, m, hp, hseg, hm⟩ := h2 rfl
      have hnd := hI.Q.changeNodup
      rw [hc] at hnd hm
      constructor
      · rw [e2]
        exact h1.move ⟨p, m, hp, hseg, fun k a' b' o' hk hkn => hm k a' b' o' hk (by simp [hkn])⟩
      · intro _
        refine ⟨p, m ++ moveEvents n (s.st n) d.state s.base oo, by rw [e2, hp]; simp, by rw [e12]; exact hseg.move _ _ _ _, ?_⟩
        intro k a' b' o' hk
        rw [e11]
        rcases List.mem_append.1 hk with hk | hk
        · have := hm k a' b' o' hk
          simp at this; exact this.2
        · rw [mem_move hk]; exact (List.nodup_cons.1 hnd).1
    | again _ hc hn hne => exact ⟨h1, by simp⟩
    | finishQuiet _ acc rej hc hne hp =>
      obtain ⟨l, hl1, hl2⟩ := finishStep_log (P := P) (Exec.resolve P s) acc rej
      obtain ⟨_, _, _, _, _, _, _, _, _, _, _, _, _, _, _, e16, e17⟩ := (resolve_frame (P := P) s).fields
      rw [hl1, e16]; exact ⟨h1.append hl2, by simp⟩
    | finish _ acc rej hc hne hp =>
      obtain ⟨l, hl1, hl2⟩ := finishStep_log (P := P) s acc rej
      rw [hl1]; exact ⟨h1.append hl2, by simp⟩

/-! ## Who holds resources -/

theorem NeverCutOff.mono {n : NodeId} {l l' : List (Event Val Env)} (h : NeverCutOff n (l ++ l')) : NeverCutOff n l :=
  fun a o hm => h a o (List.mem_append_left _ hm)

/-- Variables, as opposed to mutexes. -/
def Res.IsVar : Res → Prop
  | .var _ => True
  | .mutex _ => False

/-- Holders: only resources of their own, and variables, or if never cut off, only while running or about to run. -/
structure HInv (P : Plan Val Env) (s : St Val Env) : Prop where
  own : ∀ r n, s.holder r = some n → r ∈ resources P n
  busy : ∀ r n, NeverCutOff n s.log ∨ r.IsVar → s.holder r = some n → Running (s.st n) ∨ (n ∈ s.change ∧ s.nx n = some .executing)

theorem HInv.congr {s s' : St Val Env} (h : HInv P s) (e1 : s'.holder = s.holder) (e2 : s'.st = s.st) (e3 : s'.log = s.log)
    (e4 : ∀ n ∈ s.change, s.nx n = some .executing → n ∈ s'.change ∧ s'.nx n = some .executing) : HInv P s' := by
  constructor
  · rw [e1]; exact h.own
  · intro r n hn hh
    rw [e1] at hh; rw [e3] at hn; rw [e2]
    rcases h.busy r n hn hh with g | ⟨g1, g2⟩
    · exact .inl g
    · exact .inr (e4 n g1 g2)

theorem addStateChange_nx (n) (s : St Val Env) : (addStateChange n s).nx = s.nx := by unfold addStateChange; split <;> rfl
theorem addStateChange_holder (n) (s : St Val Env) : (addStateChange n s).holder = s.holder := by unfold addStateChange; split <;> rfl
theorem addStateChange_change (n k) (s : St Val Env) (h : k ∈ s.change) : k ∈ (addStateChange n s).change := by
  unfold addStateChange; split
  · exact List.mem_append_left _ h
  · exact h
theorem computeNext_nx (n k) (s : St Val Env) (h : k ≠ n) : (computeNext P n s).nx k = s.nx k := by
  unfold computeNext; split <;> simp [h]
theorem computeNext_holder (n) (s : St Val Env) : (computeNext P n s).holder = s.holder := by
  unfold computeNext; split <;> rfl
theorem computeNext_change (n) (s : St Val Env) : (computeNext P n s).change = s.change := by
  unfold computeNext; split <;> rfl
theorem removePending_nx (n) (s : St Val Env) : (removePending P n s).nx = s.nx := by
  obtain ⟨w, h, _⟩ := removePending_fields (P := P) n s; rw [h]
theorem removePending_holder (n) (s : St Val Env) : (removePending P n s).holder = s.holder := by
  obtain ⟨w, h, _⟩ := removePending_fields (P := P) n s; rw [h]
theorem removePending_change (n) (s : St Val Env) : (removePending P n s).change = s.change := by
  obtain ⟨w, h, _⟩ := removePending_fields (P := P) n s; rw [h]

theorem HInv.checkOne {s : St Val Env} (hI : Inv P s) (h : HInv P s) {n rest} (hc : s.cand = n :: rest) :
    HInv P (checkOne P n { s with cand := rest }) := by
  obtain ⟨e1, _, _, _, _, _, _, _, _, _, _, _, _, _, _, e16, _⟩ := (checkOne_frame (P := P) n rest s).fields
  have hq : s.q n = .check := (hI.Q.candIff n).1 (by rw [hc]; simp)
  have hch : n ∉ s.change := fun hm => (hI.Q.changeQ n hm).2.1 hq
  refine h.congr ?_ e1 e16 ?_
  · unfold Exec.checkOne
    simp only
    split
    · rw [computeNext_holder]
    · split
      · show (computeNext P n _).holder = _; rw [computeNext_holder]
      · rw [addStateChange_holder, computeNext_holder]
  · intro k hk hx
    have hkn : k ≠ n := fun e => hch (e ▸ hk)
    unfold Exec.checkOne
    simp only
    split
    · rw [computeNext_nx n k _ hkn, computeNext_change]; exact ⟨hk, hx⟩
    · split
      · show k ∈ (computeNext P n _).change ∧ (computeNext P n _).nx k = _
        rw [computeNext_nx n k _ hkn, computeNext_change]; exact ⟨hk, hx⟩
      · rw [addStateChange_nx, computeNext_nx n k _ hkn]
        exact ⟨addStateChange_change _ _ _ (by rw [computeNext_change]; exact hk), hx⟩

theorem HInv.eligible {s : St Val Env} (hI : Inv P s) (h : HInv P s) {n} (hn : n ∈ s.pending) : HInv P (eligible P n s).2.2 := by
  obtain ⟨e1, _, _, _, _, _, _, _, _, _, _, _, _, _, _, e16, _⟩ := (eligible_frame (P := P) n s).fields
  have hch : n ∉ s.change := fun hm => hI.Q.disj n hm hn
  refine h.congr ?_ e1 e16 ?_
  · unfold Exec.eligible
    split
    · simp only
      split
      · rw [removePending_holder, computeNext_holder]
      · split
        · rw [addStateChange_holder, removePending_holder, computeNext_holder]
        · exact computeNext_holder n s
    · simp only
      split
      · rw [removePending_holder, computeNext_holder]
      · split
        · rw [addStateChange_holder, removePending_holder, computeNext_holder]
        · exact computeNext_holder n s
    · rfl
    · rfl
    · rfl
  · intro k hk hx
    have hkn : k ≠ n := fun e => hch (e ▸ hk)
    have b1 : (computeNext P n s).nx k = some .executing := by rw [computeNext_nx n k _ hkn]; exact hx
    have b2 : k ∈ (computeNext P n s).change := by rw [computeNext_change]; exact hk
    unfold Exec.eligible
    split
    · simp only
      split
      · rw [removePending_nx, removePending_change]; exact ⟨b2, b1⟩
      · split
        · rw [addStateChange_nx, removePending_nx]
          exact ⟨addStateChange_change _ _ _ (by rw [removePending_change]; exact b2), b1⟩
        · exact ⟨b2, b1⟩
    · simp only
      split
      · rw [removePending_nx, removePending_change]; exact ⟨b2, b1⟩
      · split
        · rw [addStateChange_nx, removePending_nx]
          exact ⟨addStateChange_change _ _ _ (by rw [removePending_change]; exact b2), b1⟩
        · exact ⟨b2, b1⟩
    · exact ⟨hk, hx⟩
    · exact ⟨hk, hx⟩
    · exact ⟨hk, hx⟩

theorem HInv.collect (prio l) {s : St Val Env} (hI : Inv P s) (hb : s.obs = s.base) (h : HInv P s) (hl : l.Nodup)
    (hp : ∀ k ∈ l, k ∈ s.pending) : HInv P (collect P prio l s).2.2 := by
  induction l generalizing s with
  | nil => exact h
  | cons n rest ih =>
    simp only [Exec.collect]
    obtain ⟨hn, hr⟩ := List.nodup_cons.1 hl
    split
    · obtain ⟨g1, g2, g3, g4, g5, g6⟩ := eligible_spec hI hb (hp n (by simp))
      have := h.eligible hI (hp n (by simp))
      split
      · exact this
      · exact ih g1 (by rw [g2, g3]; exact hb) this hr (fun k hk => g4 k (fun e => hn (e ▸ hk)) (hp k (by simp [hk])))
    · exact h

/-- One attempt to acquire resources by a pending node. -/
theorem HInv.attempt {s : St Val Env} (hI : Inv P s) (h : HInv P s) {n} (hn : n ∈ s.pending) :
    HInv P (if (tryAcquire P n s).1 then addStateChange n (removePending P n (tryAcquire P n s).2)
      else { (tryAcquire P n s).2 with q := set (tryAcquire P n s).2.q n .pending }) := by
  have hch : n ∉ s.change := fun hc => hI.Q.disj n hc hn
  obtain ⟨hw, hnx, _⟩ := hI.N.pend n hn
  obtain ⟨_, sp2, sp3⟩ := tryAcquire_spec P n s
  have heff := tryAcquire_eff P n s
  have hnot : ¬ (Running (s.st n) ∨ (n ∈ s.change ∧ s.nx n = some .executing)) := by
    rintro (h1 | h1)
    · rw [hw] at h1; rcases h1 with h1 | h1 | h1 <;> cases h1
    · exact hch h1.1
  have hfr := tryAcquire_frame P n s
  cases hb : (tryAcquire P n s).1 with
  | false =>
    simp only [Bool.false_eq_true, if_false]
    have hh := (sp3 hb).2.2
    clear sp2 sp3
    generalize (tryAcquire P n s).2 = s1 at *
    obtain ⟨q, ho, w, e, rfl⟩ := hfr
    constructor
    · intro r k hk
      rcases hh r with g | ⟨g, _⟩
      · exact h.own r k (g ▸ hk)
      · change ho r = none at g; change ho r = some k at hk; rw [g] at hk; cases hk
    · intro r k hcut hk
      change ho r = some k at hk
      have : s.holder r = some k := by
        rcases hh r with g | ⟨g, _⟩
        · exact g ▸ hk
        · change ho r = none at g; rw [g] at hk; cases hk
      exact h.busy r k hcut this
  | true =>
    simp only [if_true]
    have hh := sp2 hb
    clear sp2 sp3
    generalize (tryAcquire P n s).2 = s1 at *
    obtain ⟨q, ho, w, e, rfl⟩ := hfr
    simp only at hh
    have hqq : (Exec.removePending P n { s with q := q, holder := ho, waiters := w, err := e }).q n = .none := by
      obtain ⟨w', heq, _⟩ := removePending_fields (P := P) n { s with q := q, holder := ho, waiters := w, err := e }
      rw [heq]; simp
    obtain ⟨w', heq, _⟩ := removePending_fields (P := P) n { s with q := q, holder := ho, waiters := w, err := e }
    unfold Exec.addStateChange
    rw [if_pos hqq, heq]
    constructor
    · intro r k hk
      change ho r = some k at hk
      rw [hh r] at hk
      split at hk
      · rename_i hr; simp at hk; subst hk; exact hr
      · exact h.own r k hk
    · intro r k hcut hk
      change ho r = some k at hk
      rw [hh r] at hk
      show Running (s.st k) ∨ (k ∈ s.change ++ [n] ∧ s.nx k = some .executing)
      split at hk
      · simp at hk; subst hk
        exact .inr ⟨by simp, hnx⟩
      · rcases h.busy r k hcut hk with g | ⟨g1, g2⟩
        · exact .inl g
        · exact .inr ⟨List.mem_append_left _ g1, g2⟩

/-- The invariant after one attempt, as in `acquireGroup_spec`. -/
theorem Inv.attempt {s : St Val Env} (hI : Inv P s) {n} (hn : n ∈ s.pending) :
    Inv P (if (tryAcquire P n s).1 then addStateChange n (removePending P n (tryAcquire P n s).2)
      else { (tryAcquire P n s).2 with q := set (tryAcquire P n s).2.q n .pending }) ∧
    ∀ k, k ≠ n → k ∈ s.pending → k ∈ (if (tryAcquire P n s).1 then addStateChange n (removePending P n (tryAcquire P n s).2)
      else { (tryAcquire P n s).2 with q := set (tryAcquire P n s).2.q n .pending }).pending := by
  have := acquireGroup_spec [n] hI (by simp) (by simpa using hn)
  simp only [acquireGroup] at this
  exact ⟨this.1, fun k hk hkp => this.2.2.2 k (by simpa using hk) hkp⟩

theorem HInv.acquireGroup (ns) {s : St Val Env} (hI : Inv P s) (h : HInv P s) (hnd : ns.Nodup) (hp : ∀ k ∈ ns, k ∈ s.pending) :
    HInv P (acquireGroup P ns s) := by
  induction ns generalizing s with
  | nil => exact h
  | cons n ns ih =>
    obtain ⟨hn, hr⟩ := List.nodup_cons.1 hnd
    simp only [Exec.acquireGroup]
    obtain ⟨i1, i2⟩ := hI.attempt (hp n (by simp))
    exact ih i1 (h.attempt hI (hp n (by simp))) hr (fun k hk => i2 k (fun e => hn (e ▸ hk)) (hp k (by simp [hk])))

theorem HInv.resolveFrom (l) {s : St Val Env} (hI : Inv P s) (hb : s.obs = s.base) (h : HInv P s) (hl : l.Nodup)
    (hp : ∀ k ∈ l, k ∈ s.pending) : HInv P (resolveFrom P l s) := by
  generalize hlen : l.length = len
  induction len using Nat.strongRecOn generalizing l s with
  | _ len ih =>
    cases l with
    | nil => rw [Exec.resolveFrom]; exact h
    | cons n rest =>
      rw [Exec.resolveFrom]
      have hc := collect_spec (P.node n).priority (n :: rest) hI hb hl hp
      have hH := h.collect (P.node n).priority (n :: rest) hI hb hl hp
      have hlt : (Exec.collect P (P.node n).priority (n :: rest) s).2.1.length < (n :: rest).length := by
        simp only [Exec.collect, if_true]
        split
        · simp
        · have := collect_length P (P.node n).priority rest (Exec.eligible P n s).2.2
          simp only [List.length_cons]
          omega
      generalize Exec.collect P (P.node n).priority (n :: rest) s = t at hc hlt hH
      obtain ⟨g1, g2, g3, _, g5, g6, g7, g8⟩ := hc
      obtain ⟨a1, a2, a3, a4⟩ := acquireGroup_spec t.1 g1 g6 (fun k hk => (g5 k hk).2)
      exact ih t.2.1.length (by omega) t.2.1 a1 (by rw [a2, a3, g2, g3, hb])
        (hH.acquireGroup t.1 g1 g6 (fun k hk => (g5 k hk).2)) g8 (fun k hk => a4 k (g7 k hk).2.2 (g7 k hk).2.1) rfl

theorem HInv.transOne {s : St Val Env} (hI : Inv P s) (h : HInv P s) {n rest} (hc : s.change = n :: rest) :
    HInv P (transOne P n { s with change := rest }) := by
  obtain ⟨d, o, oo, hd, hos, hnx, hdiag, hob, e1, e2, e3, e4, e5, e6, e7, e8, e9, e10, e11, e12, e13⟩ := transOne_fields hI hc
  have hin : n ∈ s.change := by rw [hc]; simp
  have hnxk : ∀ k, k ≠ n → (Exec.transOne P n { s with change := rest }).nx k = s.nx k := by
    intro k hk
    have hne : d.state ≠ s.st n := by
      intro e; rw [e] at hdiag
      generalize hb : s.st n = b at hdiag
      generalize hx : s.st n = c at hdiag
      rw [hb] at hx; subst hx
      generalize (P.node n).type = t at hdiag
      generalize hy : b = b' at hdiag
      cases hdiag
    have key : ∀ s1 : St Val Env, s1.nx = s.nx → s1.st = s.st → (transition P n s1).nx k = s.nx k := by
      intro s1 g1 g2
      rw [transition_nx P n s1 d.state (by rw [g1]; exact hnx) (by rw [g2]; exact hne), set_ne _ _ _ _ hk, g1]
    unfold Exec.transOne
    apply key
    · simp only; split <;> simp
    · simp only; split <;> simp
  generalize Exec.transOne P n { s with change := rest } = s' at *
  constructor
  · intro r k hk
    rw [e13, releaseAll_holder] at hk
    split at hk
    · cases hk
    · exact h.own r k hk
  · intro r k hcut hk
    rw [e13, releaseAll_holder] at hk
    split at hk
    · cases hk
    · rename_i hnr
      have hcut' : NeverCutOff k s.log ∨ r.IsVar := by rw [e2] at hcut; exact hcut.imp (fun g => g.mono) (fun g => g)
      have hbusy := h.busy r k hcut' hk
      by_cases hkn : k = n
      · subst hkn
        left
        rw [e1, set_self]
        have hown := h.own r k hk
        by_cases hrun : Running d.state
        · exact hrun
        · exfalso
          by_cases hex : d.state = .executing
          · exact hrun (.inl hex)
          · have hsr : Running (s.st k) := by
              rcases hbusy with g | ⟨_, g⟩
              · exact g
              · rw [hnx] at g; simp at g; exact absurd g hex
            -- the transition ends the run: to ITERATION_ENDED (released) or FINISHED (cut off)
            have hdest : d.state = .iterationEnded ∨ d.state = .finished := by
              clear * - hdiag hsr hrun
              generalize s.st k = a at *
              generalize d.state = b at *
              generalize (P.node k).type = t at *
              rcases hsr with rfl | rfl | rfl <;> cases hdiag <;> simp_all [Running]
            rcases hdest with hd' | hd'
            · apply hnr
              refine ⟨?_, hk⟩
              unfold released
              rw [if_pos hd', if_pos]
              · unfold resources at hown
                rcases List.mem_append.1 hown with g | g
                · exact List.mem_append_right _ g
                · exact List.mem_append_left _ g
              · intro e; rw [e] at hsr; rcases hsr with g | g | g <;> cases g
            · rcases hcut with hcut | hcut
              · refine hcut (s.st k) s.base ?_ hsr
                rw [e2, hd']
                exact List.mem_append_right _ (by simp [moveEvents])
              · -- the variable of an Assignment: FAILING to FINISHED, released
                cases r with
                | mutex m => exact hcut
                | var v =>
                  have hta : (P.node k).type = .assignment ∧ v = (P.node k).dest := by
                    unfold resources at hown
                    rcases List.mem_append.1 hown with g | g
                    · simp at g
                    · rw [mem_ite_singleton] at g
                      exact ⟨g.1, by simpa using g.2⟩
                  have hfl : s.st k = .failing := by
                    rw [hd', hta.1] at hdiag
                    clear * - hdiag hsr
                    generalize s.st k = a at *
                    rcases hsr with rfl | rfl | rfl
                    · cases hdiag
                    · cases hdiag
                    · rfl
                  apply hnr
                  refine ⟨?_, hk⟩
                  unfold released
                  simp [hd', hfl, hta.1, hta.2]
      · rcases hbusy with g | ⟨g1, g2⟩
        · left; rw [e1, set_ne _ _ _ _ hkn]; exact g
        · right
          rw [e11, hnxk k hkn]
          rw [hc] at g1
          exact ⟨by simpa [hkn] using g1, g2⟩

theorem finishStep_fields (s : St Val Env) (acc rej) : (finishStep P acc rej s).st = s.st ∧ (finishStep P acc rej s).nx = s.nx ∧
    (finishStep P acc rej s).holder = s.holder ∧ (finishStep P acc rej s).out = s.out ∧ (finishStep P acc rej s).fail = s.fail := by
  have h1 : ∀ (l : List NodeId) (s : St Val Env), (l.foldl (assignExec P) s).st = s.st ∧ (l.foldl (assignExec P) s).nx = s.nx ∧
      (l.foldl (assignExec P) s).holder = s.holder ∧ (l.foldl (assignExec P) s).out = s.out ∧ (l.foldl (assignExec P) s).fail = s.fail := by
    intro l
    induction l with
    | nil => intro s; exact ⟨rfl, rfl, rfl, rfl, rfl⟩
    | cons n l ih =>
      intro s
      obtain ⟨i1, i2, i3, i4, i5⟩ := ih (assignExec P s n)
      rw [List.foldl_cons, i1, i2, i3, i4, i5]
      unfold assignExec; simp
  have h2 : ∀ (l : List NodeId) (s : St Val Env), (l.foldl (assignRetract P) s).st = s.st ∧ (l.foldl (assignRetract P) s).nx = s.nx ∧
      (l.foldl (assignRetract P) s).holder = s.holder ∧ (l.foldl (assignRetract P) s).out = s.out ∧
      (l.foldl (assignRetract P) s).fail = s.fail := by
    intro l
    induction l with
    | nil => intro s; exact ⟨rfl, rfl, rfl, rfl, rfl⟩
    | cons n l ih =>
      intro s
      obtain ⟨i1, i2, i3, i4, i5⟩ := ih (assignRetract P s n)
      rw [List.foldl_cons, i1, i2, i3, i4, i5]
      unfold assignRetract; simp
  obtain ⟨a1, a2, a3, a4, a5⟩ := h1 s.asg s
  unfold Exec.finishStep outbound performAssignments
  simp only
  generalize s.asg.foldl (assignExec P) s = x at *
  obtain ⟨b1, b2, b3, b4, b5⟩ := h2 x.ret { x with asg := [] }
  exact ⟨b1.trans a1, b2.trans a2, b3.trans a3, b4.trans a4, b5.trans a5⟩

theorem HInv.finishStep {s : St Val Env} (h : HInv P s) (acc rej) : HInv P (finishStep P acc rej s) := by
  obtain ⟨f1, f2, f3, _⟩ := finishStep_fields (P := P) s acc rej
  obtain ⟨l, hl, _⟩ := finishStep_log (P := P) s acc rej
  constructor
  · rw [f3]; exact h.own
  · intro r n hcut hh
    rw [hl] at hcut
    rw [f3] at hh
    rw [f1, f2, finishStep_change]
    exact h.busy r n (hcut.imp (fun g => g.mono) (fun g => g)) hh

theorem Reach.hinv {ph : Phase} {s : St Val Env} (h : Reach P ph s) : HInv P s := by
  induction h with
  | init vars env => constructor <;> simp [Exec.init]
  | @step ph ph' s s' hr hs ih =>
    obtain ⟨hI, hid, hchk⟩ := hr.inv
    cases hs with
    | ext _ e ns => exact ih.congr (by simp) (by simp) (by simp) (by simp; exact fun _ h1 h2 => ⟨h1, h2⟩)
    | ackUpd _ n =>
      unfold ackUpdate
      split
      · exact ih.congr (by simp) (by simp) (by simp) (by simp; exact fun _ h1 h2 => ⟨h1, h2⟩)
      · exact ih
    | deletePlans _ => exact ih.congr rfl rfl rfl (fun _ h1 h2 => ⟨h1, h2⟩)
    | begin _ => exact ih.congr rfl rfl rfl (fun _ h1 h2 => ⟨h1, h2⟩)
    | check _ n rest hc => exact ih.checkOne hI hc
    | resolve _ hc hne => exact ih.resolveFrom _ hI (hchk rfl) hI.Q.pendingNodup (fun _ hk => hk)
    | trans _ n rest hc => exact ih.transOne hI hc
    | again _ hc hn hne => exact ih.congr rfl rfl rfl (fun _ h1 h2 => ⟨h1, h2⟩)
    | finishQuiet _ acc rej hc hne hp =>
      exact (ih.resolveFrom _ hI (hchk rfl) hI.Q.pendingNodup (fun _ hk => hk) : HInv P (Exec.resolve P s)).finishStep acc rej
    | finish _ acc rej hc hne hp => exact ih.finishStep acc rej

end Verif.Exec
