import Verif.Exec.ExitSpec
import Verif.Exec.Sync
import Verif.Exec.Wait
/-
A plan told to exit comes to an end.
-/
set_option autoImplicit false
set_option linter.unusedSimpArgs false
namespace Verif.Exec
open Verif.Node

variable {Val Env : Type} {P : Plan Val Env}

/-- How far a node is from rest when told to exit. -/
def rank (a : NState) (par : Option NState) : Nat :=
  match a with
  | .executing | .finishing => 7
  | .failing => 6
  | .iterationEnded => 5
  | .waiting => 3
  | .inactive => if par = none ∨ par = some .executing then 4 else 1
  | .finished => if par = none ∨ par = some .finished then 0 else 2

theorem rank_le (a par) : rank a par ≤ 7 := by cases a <;> simp [rank] <;> split <;> omega

theorem abnormal_told {c : Conds} (hx : isT c.ancExit = true ∨ isT c.exit = true) : ∃ d, abnormal c = some d ∧ d.state = .failing := by
  unfold abnormal
  by_cases h1 : isT c.ancExit = true
  · rw [if_pos h1]; exact ⟨_, rfl, rfl⟩
  · rw [if_neg h1]
    rcases hx with h | h
    · exact absurd h h1
    · rw [if_pos h]; exact ⟨_, rfl, rfl⟩

theorem rank_drop {t a par f c} {d : Dest} (h : getDest t a par f c = some d) (he : StateExists t a)
    (hx : isT c.ancExit = true ∨ isT c.exit = true) : rank d.state par < rank a par ∧ d.state ≠ .executing ∧ d.state ≠ .finishing := by
  obtain ⟨da, hab, hda⟩ := abnormal_told hx
  cases a <;> cases t <;>
    first
    | (simp [StateExists] at he; done)
    | (simp only [getDest, fromInactive, fromWaiting, fromExecuting, fromFinishing, fromFailing, fromIterationEnded, fromFinished,
        hab, endIteration] at h
       (repeat' split at h) <;> first
        | (cases h; done)
        | (cases h; simp_all [rank]; done)
        | (cases h; simp_all [rank]; split <;> omega))

/-- Where a node will be when the queued transitions have been made. -/
def tgt (s : St Val Env) (k : NodeId) : NState := if k ∈ s.change then (s.nx k).getD (s.st k) else s.st k

theorem transOne_nx {s : St Val Env} (hI : Inv P s) {n rest} (hc : s.change = n :: rest) {k} (hk : k ≠ n) :
    (transOne P n { s with change := rest }).nx k = s.nx k := by
  obtain ⟨d, o, oo, hd, hos, hnx, hdiag, _⟩ := transOne_fields hI hc
  have hne : d.state ≠ s.st n := by
    have := getDest_ne hd (by rw [hos]; exact (hI.N.ok n).1); rw [hos] at this; exact this
  unfold Exec.transOne
  simp only
  split <;> rw [transition_nx P n _ d.state (by simpa using hnx) (by simpa using hne), set_ne _ _ _ _ hk]
  · rfl

theorem tgt_transOne {s : St Val Env} (hI : Inv P s) {n rest} (hc : s.change = n :: rest) (k) :
    tgt (transOne P n { s with change := rest }) k = tgt s k := by
  obtain ⟨d, o, oo, hd, hos, hnx, hdiag, _, h1, _, _, _, _, _, _, _, _, _, h2, h3, _⟩ := transOne_fields hI hc
  have hnr : n ∉ rest := by have := hI.Q.changeNodup; rw [hc] at this; exact (List.nodup_cons.1 this).1
  unfold tgt
  rw [h2, h1, hc]
  by_cases e : k = n
  · subst e; simp [hnr, hnx]
  · simp [e, transOne_nx hI hc e, set_ne _ _ _ _ e]

/-- What the queued nodes do follows from the situation at the start of the micro step. -/
theorem ReachN.queued (hN : Notifies P) (hT : TreeOK P) {ph : Phase} {s : St Val Env} (h : ReachN P ph s) {n} (hn : n ∈ s.change) :
    ∃ d, decideNext P s.base n = some d ∧ s.nx n = some d.state ∧ s.base.st n = s.st n ∧ StateExists (P.node n).type (s.st n) := by
  obtain ⟨hI, _, _⟩ := h.reach.inv
  obtain ⟨d, o, hd, hst, hf, hnx, hnxO, hnxF, hbase⟩ := hI.N.dec n hn
  have hex := (hI.N.ok n).1
  by_cases hx : d.state = .executing
  · have hr := h.binv hN hT n hn (by rw [hnx, hx])
    refine ⟨_, hr, by rw [hnx, hx], ?_, hex⟩
    rw [(getDest_executing (hd := rfl) hr).1, ← hst, (getDest_executing hd hx).1]
  · have := hbase (fun g => hx g.1)
    subst this
    exact ⟨d, hd, hnx, hst, hex⟩

theorem foldr_orT (f : NodeId → Cond) (l : List NodeId) {a} (ha : a ∈ l) (hf : f a = some (some true)) :
    l.foldr (fun a acc => orC (f a) acc) none = some (some true) := by
  induction l with
  | nil => cases ha
  | cons x l ih =>
    simp only [List.foldr_cons]
    rcases List.mem_cons.1 ha with e | e
    · rw [← e, hf]; cases l.foldr (fun a acc => orC (f a) acc) none <;> rfl
    · rw [ih e]
      cases f x with
      | none => rfl
      | some y => cases y with
        | none => rfl
        | some b => cases b <;> rfl

theorem told_conds {r k : NodeId} {o : Obs Val Env} (ht : ToldToExit P r o) (hk : Within P r k) :
    isT (conds P o k).ancExit = true ∨ isT (conds P o k).exit = true := by
  obtain ⟨c, hc, hv⟩ := ht
  rcases hk with rfl | hk
  · right; simp [conds, evalC, hc, hv, isT]
  · left
    show isT (ancExit P o k) = true
    unfold ancExit
    rw [foldr_orT (fun a => evalC (P.node a).exit o) _ hk (by simp [evalC, hc, hv])]; rfl

/-! ## Counting -/

theorem moves_append (k) (l l' : List (Event Val Env)) : moves k (l ++ l') = moves k l + moves k l' := by
  induction l with
  | nil => simp [moves]
  | cons e l ih => cases e <;> simp [moves, ih]; omega

theorem moves_noTrans (k) (l : List (Event Val Env)) (h : ∀ e ∈ l, NoTrans e) : moves k l = 0 := by
  induction l with
  | nil => rfl
  | cons e l ih =>
    have h1 := h e (by simp)
    have h2 := ih (fun e' h' => h e' (by simp [h']))
    cases e <;> first | exact h1.elim | exact h2

theorem moves_move (k n a b) (base o : Obs Val Env) : moves k (moveEvents n a b base o) = if n = k then 1 else 0 := by
  unfold moveEvents; split <;> simp [moves]

/-- A node's moves are paid for by its parent's. -/
def Paid (P : Plan Val Env) (k : NodeId) (cnt : NodeId → Nat) (st : NodeId → NState) : Prop :=
  cnt k + rank (st k) ((P.node k).anc.head?.map st) ≤ (match (P.node k).anc.head? with | none => 0 | some p => 8 * cnt p) + 7

theorem Paid.zero {k : NodeId} {cnt : NodeId → Nat} (st : NodeId → NState) (h : cnt k = 0) : Paid P k cnt st := by
  unfold Paid
  have := rank_le (st k) ((P.node k).anc.head?.map st)
  omega

/-- If the node does not move, but perhaps its parent. -/
theorem Paid.other {k : NodeId} {cnt cnt' : NodeId → Nat} {st st' : NodeId → NState} (h : Paid P k cnt st) (h1 : cnt' k = cnt k)
    (h2 : st' k = st k) (h3 : ∀ p, (P.node k).anc.head? = some p → (cnt' p = cnt p ∧ st' p = st p) ∨ cnt' p = cnt p + 1) :
    Paid P k cnt' st' := by
  unfold Paid at *
  rw [h1, h2]
  cases hp : (P.node k).anc.head? with
  | none => rw [hp] at h; exact h
  | some p =>
    rw [hp] at h
    simp only [Option.map_some] at h ⊢
    rcases h3 p hp with ⟨e1, e2⟩ | e
    · rw [e1, e2]; exact h
    · rw [e]
      have := rank_le (st k) (some (st' p))
      omega

def cntTgt (s : St Val Env) (L : List (Event Val Env)) (k : NodeId) : Nat := moves k L + if k ∈ s.change then 1 else 0

theorem rank_six {a : NState} (par) (h1 : a ≠ .executing) (h2 : a ≠ .finishing) : rank a par ≤ 6 := by
  cases a <;> simp_all [rank] <;> split <;> omega

theorem tgt_of_mem {s : St Val Env} {k} {d : NState} (h : k ∈ s.change) (hd : s.nx k = some d) : tgt s k = d := by
  unfold tgt; rw [if_pos h, hd]; rfl

/-- A history that has just begun. -/
theorem Paid.tgtZero (hN : Notifies P) (hT : TreeOK P) {ph : Phase} {s : St Val Env} (h : ReachN P ph s) {r k : NodeId} (hk : Within P r k)
    (ht : ToldToExit P r s.base) {L : List (Event Val Env)} (hz : moves k L = 0) : Paid P k (cntTgt s L) (tgt s) := by
  by_cases hc : k ∈ s.change
  · obtain ⟨d, hd, hnx, hst, hex⟩ := h.queued hN hT hc
    have hdr := rank_drop hd (hst ▸ hex) (told_conds ht hk)
    unfold Paid cntTgt
    rw [hz, if_pos hc, tgt_of_mem hc hnx]
    have := rank_six ((P.node k).anc.head?.map (tgt s)) hdr.2.1 hdr.2.2
    omega
  · exact .zero _ (by unfold cntTgt; rw [hz, if_neg hc])

/-- The beginning of a micro step. -/
theorem Paid.queue (hN : Notifies P) (hT : TreeOK P) {ph : Phase} {s : St Val Env} (h : ReachN P ph s) (hb : s.obs = s.base) {r k : NodeId}
    (hk : Within P r k) (ht : ToldToExit P r s.base) {L : List (Event Val Env)} (hp : Paid P k (fun k => moves k L) s.st) :
    Paid P k (cntTgt s L) (tgt s) := by
  have same : ∀ p, p ∉ s.change → tgt s p = s.st p := fun p hp => by unfold tgt; rw [if_neg hp]
  by_cases hc : k ∈ s.change
  · obtain ⟨d, hd, hnx, hst, hex⟩ := h.queued hN hT hc
    have hdr := rank_drop hd (hst ▸ hex) (told_conds ht hk)
    have h6 := rank_six ((P.node k).anc.head?.map (tgt s)) hdr.2.1 hdr.2.2
    unfold Paid at hp ⊢
    rw [tgt_of_mem hc hnx]
    have hck : cntTgt s L k = moves k L + 1 := by unfold cntTgt; rw [if_pos hc]
    rw [hck]
    have hdr1 := hdr.1
    unfold parentState at hdr1
    rw [hst, ← hb] at hdr1
    have hobs : s.obs.st = s.st := rfl
    rw [hobs] at hdr1
    cases hpar : (P.node k).anc.head? with
    | none =>
      rw [hpar] at hp hdr1
      simp only [Option.map_none] at hp hdr1 ⊢
      omega
    | some p =>
      rw [hpar] at hp hdr1 h6
      simp only [Option.map_some] at hp hdr1 h6 ⊢
      by_cases hpc : p ∈ s.change
      · have : cntTgt s L p = moves p L + 1 := by unfold cntTgt; rw [if_pos hpc]
        rw [this]
        have := rank_le (s.st k) (some (s.st p))
        omega
      · have : cntTgt s L p = moves p L := by unfold cntTgt; rw [if_neg hpc]; rfl
        rw [this, same p hpc]
        omega
  · refine hp.other (by unfold cntTgt; rw [if_neg hc]; rfl) (same k hc) (fun p _ => ?_)
    by_cases hpc : p ∈ s.change
    · right; unfold cntTgt; rw [if_pos hpc]
    · left; exact ⟨by unfold cntTgt; rw [if_neg hpc]; rfl, same p hpc⟩

/-- The invariant: in every history since some moment during which the plan was told to exit. -/
def Payment (P : Plan Val Env) (r : NodeId) (ph : Phase) (s : St Val Env) : Prop :=
  ∀ L0 L1, s.log = L0 ++ L1 → (∀ k a b o, .trans k a b o ∈ L1 → Within P r k → ToldToExit P r o) → ∀ k, Within P r k →
    (ph = .trans → ToldToExit P r s.base → Paid P k (cntTgt s L1) (tgt s)) ∧
    ((ph = .trans → ¬ ToldToExit P r s.base) → Paid P k (fun k => moves k L1) s.st)

/-- How a history of a longer log lies. -/
theorem split_append {α : Type} {A B L0 L1 : List α} (h : A ++ B = L0 ++ L1) :
    (∃ L, A = L0 ++ L ∧ L1 = L ++ B) ∨ (∃ L, L ≠ [] ∧ B = L ++ L1) := by
  rcases List.append_eq_append_iff.1 h with ⟨c, h1, h2⟩ | ⟨c, h1, h2⟩
  · by_cases hc : c = []
    · subst hc; left; exact ⟨[], by simpa using h1.symm, by simpa using h2.symm⟩
    · right; exact ⟨c, hc, h2⟩
  · left; exact ⟨c, h1, h2⟩

theorem Payment.quiet {r : NodeId} {ph ph' : Phase} {s s' : St Val Env} (h : Payment P r ph s) (hp : ph ≠ .trans) (hp' : ph' ≠ .trans)
    (h1 : s'.st = s.st) {l} (h2 : s'.log = s.log ++ l) (hl : ∀ e ∈ l, NoTrans e) : Payment P r ph' s' := by
  intro L0 L1 e ha k hk
  refine ⟨fun g => absurd g hp', fun _ => ?_⟩
  rw [h1]
  rw [h2] at e
  rcases split_append e with ⟨L, e1, e2⟩ | ⟨L, _, e2⟩
  · have := (h L0 L e1 (fun k a b o hm => ha k a b o (by rw [e2]; simp [hm])) k hk).2 (fun g => absurd g hp)
    have hm : ∀ k, moves k L1 = moves k L := fun k => by rw [e2, moves_append, moves_noTrans k l hl]; omega
    unfold Paid at *
    simp only [hm]; exact this
  · exact .zero _ (moves_noTrans k L1 fun e' h' => hl e' (by rw [e2]; simp [h']))

theorem Payment.transOne (hN : Notifies P) (hT : TreeOK P) {r : NodeId} {s : St Val Env} (hr : ReachN P .trans s) (h : Payment P r .trans s)
    {n rest} (hc : s.change = n :: rest) : Payment P r .trans (transOne P n { s with change := rest }) := by
  obtain ⟨hI, _, _⟩ := hr.reach.inv
  have hr' : ReachN P .trans (Exec.transOne P n { s with change := rest }) := hr.step (.trans _ _ _ hc) (by simp)
  have htg := tgt_transOne (P := P) hI hc
  obtain ⟨d, o, oo, hd, hos, hnx, hdiag, hob, e1, e2, e3, e4, e5, e6, e7, e8, e9, e10, e11, e12, e13⟩ := transOne_fields hI hc
  generalize Exec.transOne P n { s with change := rest } = s' at *
  have hnr : n ∉ rest := by have := hI.Q.changeNodup; rw [hc] at this; exact (List.nodup_cons.1 this).1
  have htf : tgt s' = tgt s := funext htg
  intro L0 L1 e ha k hk
  rw [e2] at e
  rw [htf, e12]
  rcases split_append e with ⟨L, g1, g2⟩ | ⟨L, gne, g2⟩
  · have hm : ∀ k, moves k L1 = moves k L + if n = k then 1 else 0 := fun k => by rw [g2, moves_append, moves_move]
    obtain ⟨i1, i2⟩ := h L0 L g1 (fun k a b o hm => ha k a b o (by rw [g2]; simp [hm])) k hk
    constructor
    · intro _ ht
      have := i1 rfl ht
      have hcnt : cntTgt s' L1 = cntTgt s L := by
        funext j
        unfold cntTgt
        rw [hm, e11, hc]
        by_cases ej : n = j
        · subst ej; simp [hnr]
        · have : j ≠ n := fun e => ej e.symm
          simp [ej, this]
      rw [hcnt]; exact this
    · intro ht
      have ht := ht rfl
      have hn : ¬ Within P r n := fun hw => ht (ha n (s.st n) d.state s.base (by rw [g2]; simp [moveEvents]) hw)
      have hkn : k ≠ n := fun e => hn (e ▸ hk)
      refine (i2 fun _ => ht).other (by show moves k L1 = moves k L; rw [hm, if_neg (Ne.symm hkn)]; rfl)
        (by rw [e1, set_ne _ _ _ _ hkn]) (fun p _ => ?_)
      show (moves p L1 = moves p L ∧ _) ∨ moves p L1 = moves p L + 1
      rw [hm]
      by_cases ep : n = p
      · right; rw [if_pos ep]
      · left; rw [if_neg ep, e1, set_ne _ _ _ _ (Ne.symm ep)]; exact ⟨rfl, rfl⟩
  · have hz : ∀ k, moves k L1 = 0 := by
      intro k
      refine moves_noTrans k L1 fun x hx => ?_
      cases L with
      | nil => exact absurd rfl gne
      | cons y L =>
        have : (if d.state = .executing then [Event.start n oo] else []) = L ++ L1 := by
          have := g2; unfold moveEvents at this; simp only [List.cons_append, List.cons.injEq, List.singleton_append] at this
          first | exact this.2 | exact this.2.symm
        have : x ∈ (if d.state = .executing then [Event.start n oo] else []) := by rw [this]; simp [hx]
        rw [mem_ite_singleton] at this
        rw [this.2]; trivial
    refine ⟨fun _ ht => ?_, fun _ => .zero _ (hz k)⟩
    rw [← htf]
    exact Paid.tgtZero hN hT hr' hk (by rw [e12]; exact ht) (hz k)

theorem ReachN.payment (hN : Notifies P) (hT : TreeOK P) (r : NodeId) {ph : Phase} {s : St Val Env} (h : ReachN P ph s) :
    Payment P r ph s := by
  have fin : ∀ (s : St Val Env), ReachN P .trans s → s.change = [] → Payment P r .trans s → Payment P r .check s := by
    intro s hr hc hp L0 L1 e ha k hk
    refine ⟨by simp, fun _ => ?_⟩
    obtain ⟨i1, i2⟩ := hp L0 L1 e ha k hk
    by_cases ht : ToldToExit P r s.base
    · have := i1 rfl ht
      have g1 : cntTgt s L1 = fun k => moves k L1 := by funext j; unfold cntTgt; rw [hc]; simp
      have g2 : tgt s = s.st := by funext j; unfold tgt; rw [hc]; simp
      rw [g1, g2] at this; exact this
    · exact i2 fun _ => ht
  induction h with
  | init vars env =>
    intro L0 L1 e ha k hk
    refine ⟨by simp, fun _ => ?_⟩
    have : L1 = [] := by
      have : ([] : List (Event Val Env)) = L0 ++ L1 := e
      simp at this; exact this.2
    subst this
    exact .zero _ rfl
  | ext e ns _ hns ih => exact ih.quiet (l := []) (by simp) (by simp) (by simp) (by simp) (by simp)
  | ackUpd n _ ih =>
    unfold Exec.ackUpdate
    split
    · exact ih.quiet (l := []) (by simp) (by simp) (by simp) (by simp) (by simp)
    · exact ih
  | deletePlans _ ih => exact ih.quiet (l := []) (by simp) (by simp) rfl (by simp) (by simp)
  | @step ph ph' s s' hr hs hid ih =>
    obtain ⟨hI, hid0, hchk⟩ := hr.reach.inv
    cases hs with
    | ext _ e ns => exact absurd ⟨rfl, rfl⟩ hid
    | ackUpd _ n => exact absurd ⟨rfl, rfl⟩ hid
    | deletePlans _ => exact absurd ⟨rfl, rfl⟩ hid
    | begin _ => exact ih.quiet (l := []) (by simp) (by simp) rfl (by simp) (by simp)
    | check _ n rest hc =>
      obtain ⟨e1, _, _, _, _, _, e7, e8, _, _, _, _, _, _, _, e16, e17⟩ := (checkOne_frame (P := P) n rest s).fields
      exact ih.quiet (l := []) (by simp) (by simp) e1 (by simpa using e16) (by simp)
    | resolve _ hc hne =>
      obtain ⟨e1, _, _, _, _, _, e7, e8, _, _, _, _, _, _, _, e16, e17⟩ := (resolve_frame (P := P) s).fields
      obtain ⟨hIr, hor, hbr⟩ := hI.resolve (hchk rfl)
      have hob : (Exec.resolve P s).obs = (Exec.resolve P s).base := by rw [hor, hbr]; exact hchk rfl
      intro L0 L1 e ha k hk
      have hp := (ih L0 L1 (by rw [← e16]; exact e) ha k hk).2 (by simp)
      rw [← e1] at hp
      exact ⟨fun _ ht => Paid.queue hN hT (hr.step (.resolve _ hc hne) (by simp)) hob hk ht hp, fun _ => hp⟩
    | trans _ n rest hc => exact ih.transOne hN hT hr hc
    | again _ hc hn hne => exact (fin s hr hc ih).quiet (l := []) (by simp) (by simp) rfl (by simp) (by simp)
    | finishQuiet _ acc rej hc hne hp =>
      obtain ⟨e1, _, _, _, _, _, e7, e8, _, _, _, _, _, _, _, e16, e17⟩ := (resolve_frame (P := P) s).fields
      obtain ⟨l, hl1, hl2⟩ := finishStep_log (P := P) (Exec.resolve P s) acc rej
      exact ih.quiet (l := l) (by simp) (by simp) ((finishStep_fields _ _ _).1.trans e1) (by rw [hl1, e16]) hl2
    | finish _ acc rej hc hne hp =>
      obtain ⟨l, hl1, hl2⟩ := finishStep_log (P := P) s acc rej
      exact (fin s hr hc ih).quiet (l := l) (by simp) (by simp) (finishStep_fields _ _ _).1 hl1 hl2

/-- However long it goes on: at most `8 * m + 7` transitions for `m` of the parent. -/
theorem ReachN.moves_le (hN : Notifies P) (hT : TreeOK P) {r : NodeId} {ph : Phase} {s : St Val Env} (h : ReachN P ph s)
    {L0 L1} (hl : s.log = L0 ++ L1) (ha : ∀ k a b o, .trans k a b o ∈ L1 → Within P r k → ToldToExit P r o) {k} (hk : Within P r k) :
    moves k L1 ≤ (match (P.node k).anc.head? with | none => 0 | some p => 8 * (moves p L1 + 1)) + 7 := by
  obtain ⟨i1, i2⟩ := h.payment hN hT r L0 L1 hl ha k hk
  by_cases ht : ph = .trans ∧ ToldToExit P r s.base
  · have := i1 ht.1 ht.2
    unfold Paid cntTgt at this
    cases hp : (P.node k).anc.head? with
    | none => rw [hp] at this; simp only at this ⊢; omega
    | some p =>
      rw [hp] at this; simp only at this ⊢
      have : (if p ∈ s.change then 1 else 0) ≤ 1 := by split <;> omega
      omega
  · have := i2 fun g g' => ht ⟨g, g'⟩
    unfold Paid at this
    cases hp : (P.node k).anc.head? with
    | none => rw [hp] at this; simp only at this ⊢; omega
    | some p => rw [hp] at this; simp only at this ⊢; omega

theorem Within.parent (hA : PlanTree P) {r k p : NodeId} {l} (hr : (P.node r).anc = []) (hk : Within P r k) (hp : (P.node k).anc = p :: l) :
    Within P r p := by
  obtain ⟨_, _, e⟩ := hA.parent p k l hp
  rcases hk with rfl | hk
  · rw [hr] at hp; cases hp
  · rw [hp] at hk
    rcases List.mem_cons.1 hk with e' | e'
    · exact .inl e'.symm
    · exact .inr (e ▸ e')

theorem pow_bound (hA : PlanTree P) {r : NodeId} (hr : (P.node r).anc = []) {cnt : NodeId → Nat} {st : NodeId → NState}
    (h : ∀ k, Within P r k → Paid P k cnt st) (k) (hk : Within P r k) : cnt k + 1 ≤ 8 ^ ((P.node k).anc.length + 1) := by
  generalize hn : (P.node k).anc.length = n
  induction n generalizing k with
  | zero =>
    have := h k hk
    have e : (P.node k).anc = [] := List.length_eq_zero_iff.1 hn
    unfold Paid at this
    rw [e] at this
    simp only [List.head?_nil] at this
    omega
  | succ n ih =>
    cases e : (P.node k).anc with
    | nil => rw [e] at hn; cases hn
    | cons p l =>
      obtain ⟨_, _, el⟩ := hA.parent p k l e
      have i := ih p (hk.parent hA hr e) (by rw [← el]; rw [e] at hn; simpa using hn)
      have := h k hk
      unfold Paid at this
      rw [e] at this
      have this : cnt k + rank (st k) (some (st p)) ≤ 8 * cnt p + 7 := this
      rw [Nat.pow_succ]
      omega

theorem ReachN.moves_pow (hN : Notifies P) (hT : TreeOK P) (hA : PlanTree P) {r : NodeId} (hr : (P.node r).anc = []) {ph : Phase}
    {s : St Val Env} (h : ReachN P ph s)
    {L0 L1} (hl : s.log = L0 ++ L1) (ha : ∀ k a b o, .trans k a b o ∈ L1 → Within P r k → ToldToExit P r o) {k} (hk : Within P r k) :
    moves k L1 + 1 ≤ 8 ^ ((P.node k).anc.length + 1) := by
  by_cases ht : ph = .trans ∧ ToldToExit P r s.base
  · have := pow_bound hA hr (fun k hk => (h.payment hN hT r L0 L1 hl ha k hk).1 ht.1 ht.2) k hk
    unfold cntTgt at this
    omega
  · exact pow_bound hA hr (fun k hk => (h.payment hN hT r L0 L1 hl ha k hk).2 fun g g' => ht ⟨g, g'⟩) k hk

/-! ## No child is left INACTIVE by a list that is on its way out -/

theorem PlanTree.tree (hA : PlanTree P) : TreeOK P := by
  intro k p h
  cases e : (P.node k).anc with
  | nil => rw [e] at h; cases h
  | cons q l =>
    rw [e] at h
    have : q = p := by simpa using h
    subst this
    exact ⟨(hA.parent q k l e).2.1, (hA.parent q k l e).1⟩

/-- On the way out. -/
def Leaving (a : NState) : Prop := a = .failing ∨ a = .finishing

def NoneLeft (P : Plan Val Env) (st : NodeId → NState) : Prop :=
  ∀ p c l, (P.node c).anc = p :: l → Leaving (st p) → st c ≠ .inactive

theorem getDest_to_inactive {t a par f c} {d : Dest} (h : getDest t a par f c = some d) (he : StateExists t a) (hd : d.state = .inactive) :
    a = .finished ∧ par = some .waiting := by
  have hdg := (Verif.Props.Node.C01_destination_in_diagram t a par f c d he h).1
  rw [hd] at hdg
  generalize hb : NState.inactive = b at hdg
  cases hdg <;> cases hb
  refine ⟨rfl, ?_⟩
  simp only [getDest, fromFinished] at h
  split at h
  · assumption
  · cases h

theorem getDest_to_leaving {t a par f c} {d : Dest} (h : getDest t a par f c = some d) (he : StateExists t a) (hd : Leaving d.state) :
    a = .executing ∨ a = .finishing := by
  have hdg := (Verif.Props.Node.C01_destination_in_diagram t a par f c d he h).1
  rcases hd with hd | hd <;> rw [hd] at hdg
  · generalize hb : NState.failing = b at hdg
    cases hdg <;> first | exact .inl rfl | exact .inr rfl | (cases hb; done)
  · generalize hb : NState.finishing = b at hdg
    generalize ha : a = a' at hdg
    cases hdg <;> first | exact .inl rfl | (cases hb; done)

/-- A node that has something to do at the end of the condition checks is queued, unless it waits for a resource. -/
theorem DInv.mem_change {s : St Val Env} (hI : Inv P s) (hD : DInv P s) (hc : s.cand = []) {k} (hk : (P.node k).anc ≠ [])
    (hw : s.st k ≠ .waiting) (hd : decideNext P s.obs k ≠ none) : k ∈ s.change := by
  cases hq : s.q k with
  | none =>
    rcases hD.quiet k hq with g | g
    · exact absurd g hd
    · exact absurd g.1 hk
  | check => have := (hI.Q.candIff k).2 hq; rw [hc] at this; cases this
  | delete => exact absurd (hD.del k hq).2 hk
  | transition => exact hI.Q.transIn k (.inl hq)
  | transitionCheck => exact hI.Q.transIn k (.inr hq)
  | _ => exact absurd (hD.acq k (by rw [hq]; trivial)).2 hw

theorem NoneLeft.queue (hN : Notifies P) (hT : TreeOK P) {ph : Phase} {s : St Val Env} (hr : ReachN P ph s) (hb : s.obs = s.base)
    (hc : s.cand = []) (h : NoneLeft P s.st) : NoneLeft P (tgt s) := by
  obtain ⟨hI, _, _⟩ := hr.reach.inv
  have hD := hr.dinv hN hT
  have hst : s.base.st = s.st := by rw [← hb]; rfl
  have same : ∀ p, p ∉ s.change → tgt s p = s.st p := fun p hp => by unfold tgt; rw [if_neg hp]
  intro p c l hp hl hci
  have hpar : ∀ o : Obs Val Env, parentState P o c = some (o.st p) := by intro o; unfold parentState; rw [hp]; rfl
  -- `p` was not WAITING
  have hpw : s.st p ≠ .waiting ∧ (s.st p = .executing ∨ s.st c ≠ .inactive) := by
    by_cases hpc : p ∈ s.change
    · obtain ⟨d, hd, hnx, hs, hex⟩ := hr.queued hN hT hpc
      rw [tgt_of_mem hpc hnx] at hl
      have := getDest_to_leaving hd (hs ▸ hex) hl
      rw [hs] at this
      rcases this with g | g
      · exact ⟨by rw [g]; simp, .inl g⟩
      · exact ⟨by rw [g]; simp, .inr (h p c l hp (.inr g))⟩
    · rw [same p hpc] at hl
      refine ⟨?_, .inr (h p c l hp hl)⟩
      rcases hl with g | g <;> rw [g] <;> simp
  by_cases hcc : c ∈ s.change
  · obtain ⟨d, hd, hnx, hs, hex⟩ := hr.queued hN hT hcc
    rw [tgt_of_mem hcc hnx] at hci
    have := (getDest_to_inactive hd (hs ▸ hex) hci).2
    rw [hpar, hst] at this
    exact hpw.1 (by simpa using this)
  · rw [same c hcc] at hci
    rcases hpw.2 with g | g
    · refine hcc (hD.mem_change hI hc (by rw [hp]; simp) (by rw [hci]; simp) ?_)
      unfold decideNext
      rw [show s.obs.st c = .inactive from hci, hpar, show s.obs.st p = .executing from g]
      simp only [getDest, fromInactive]
      (repeat' split) <;> simp
    · exact g hci

theorem ReachN.noneLeft (hN : Notifies P) (hT : TreeOK P) {ph : Phase} {s : St Val Env} (h : ReachN P ph s) :
    (ph ≠ .trans → NoneLeft P s.st) ∧ (ph = .trans → NoneLeft P (tgt s)) := by
  have fin : ∀ s : St Val Env, s.change = [] → tgt s = s.st := fun s hc => by funext j; unfold tgt; rw [hc]; simp
  induction h with
  | init vars env => exact ⟨fun _ p c l hp hl => (by rcases hl with g | g <;> cases g), by simp⟩
  | ext e ns _ hns ih => exact ⟨fun _ => by simpa using ih.1 (by simp), by simp⟩
  | ackUpd n _ ih =>
    refine ⟨fun _ => ?_, by simp⟩
    unfold Exec.ackUpdate
    split
    · simpa using ih.1 (by simp)
    · exact ih.1 (by simp)
  | deletePlans _ ih => exact ⟨fun _ => ih.1 (by simp), by simp⟩
  | @step ph ph' s s' hr hs hid ih =>
    obtain ⟨hI, hid0, hchk⟩ := hr.reach.inv
    cases hs with
    | ext _ e ns => exact absurd ⟨rfl, rfl⟩ hid
    | ackUpd _ n => exact absurd ⟨rfl, rfl⟩ hid
    | deletePlans _ => exact absurd ⟨rfl, rfl⟩ hid
    | begin _ => exact ⟨fun _ => ih.1 (by simp), by simp⟩
    | check _ n rest hc =>
      obtain ⟨e1, _⟩ := (checkOne_frame (P := P) n rest s).fields
      exact ⟨fun _ => by rw [e1]; exact ih.1 (by simp), by simp⟩
    | resolve _ hc hne =>
      obtain ⟨e1, _, _, _, _, _, e7, e8, _, _, _, _, _, _, _, e16, e17⟩ := (resolve_frame (P := P) s).fields
      obtain ⟨hIr, hor, hbr⟩ := hI.resolve (hchk rfl)
      have hob : (Exec.resolve P s).obs = (Exec.resolve P s).base := by rw [hor, hbr]; exact hchk rfl
      refine ⟨by simp, fun _ => ?_⟩
      refine NoneLeft.queue hN hT (hr.step (.resolve _ hc hne) (by simp)) hob ?_ (by rw [e1]; exact ih.1 (by simp))
      rw [Exec.resolve, resolveFrom_cand]; exact hc
    | trans _ n rest hc =>
      refine ⟨by simp, fun _ => ?_⟩
      rw [show tgt (transOne P n { s with change := rest }) = tgt s from funext (tgt_transOne hI hc)]
      exact ih.2 rfl
    | again _ hc hn hne => exact ⟨fun _ => by have := ih.2 rfl; rw [fin s hc] at this; exact this, by simp⟩
    | finishQuiet _ acc rej hc hne hp =>
      obtain ⟨e1, _⟩ := (resolve_frame (P := P) s).fields
      exact ⟨fun _ => by rw [(finishStep_fields _ _ _).1, e1]; exact ih.1 (by simp), by simp⟩
    | finish _ acc rej hc hne hp =>
      exact ⟨fun _ => by rw [(finishStep_fields _ _ _).1]; have := ih.2 rfl; rw [fin s hc] at this; exact this, by simp⟩

/-! ## Between macro steps, started assignments have been made and failing ones undone -/

structure AInv (P : Plan Val Env) (s : St Val Env) : Prop where
  made : ∀ n, (P.node n).type = .assignment → s.st n = .executing → s.ack n = true ∨ n ∈ s.asg
  undone : ∀ n, (P.node n).type = .assignment → s.st n = .failing → s.abort n = true ∨ n ∈ s.ret

theorem AInv.congr {s s' : St Val Env} (h : AInv P s) (h1 : s'.st = s.st) (h2 : s'.ack = s.ack) (h3 : s'.abort = s.abort)
    (h4 : s'.asg = s.asg) (h5 : s'.ret = s.ret) : AInv P s' := by
  obtain ⟨g1, g2⟩ := h
  constructor <;> simp only [h1, h2, h3, h4, h5] <;> assumption

theorem AInv.transOne {s : St Val Env} (hI : Inv P s) (h : AInv P s) {n rest} (hc : s.change = n :: rest) :
    AInv P (transOne P n { s with change := rest }) := by
  obtain ⟨d, o, oo, hd, hos, hnx, hdiag, hob, e1, e2, e3, e4, e5, e6, e7, e8, e9, e10, e11, e12, e13⟩ := transOne_fields hI hc
  have hab := transOne_abort hI hc hnx
  generalize Exec.transOne P n { s with change := rest } = s' at *
  constructor
  · intro k ht hk
    rw [e1] at hk
    rw [e10, e5]
    by_cases e : k = n
    · subst e
      have : d.state = .executing := by simpa [set] using hk
      right; simp [this, ht]
    · simp only [set, e, if_false] at hk
      rcases h.made k ht hk with g | g
      · left; split
        · simpa [set, e] using g
        · exact g
      · right; simp [g]
  · intro k ht hk
    rw [e1] at hk
    rw [hab, e8]
    by_cases e : k = n
    · subst e
      have : d.state = .failing := by simpa [set] using hk
      right; simp [this, ht]
    · simp only [set, e, if_false] at hk
      rcases h.undone k ht hk with g | g
      · left; split
        · simpa [set, e] using g
        · exact g
      · right; simp [g]

theorem assignAll_ack (l : List NodeId) (s : St Val Env) : (l.foldl (assignExec P) s).abort = s.abort ∧
    (∀ k, s.ack k = true → (l.foldl (assignExec P) s).ack k = true) ∧
    ∀ k ∈ l, s.st k = .executing → (l.foldl (assignExec P) s).ack k = true := by
  induction l generalizing s with
  | nil => exact ⟨rfl, fun _ h => h, by simp⟩
  | cons n l ih =>
    obtain ⟨i1, i2, i3⟩ := ih (assignExec P s n)
    have hst : (assignExec P s n).st = s.st := by unfold assignExec; simp
    have hack : (assignExec P s n).ack = if s.st n = .executing then set s.ack n true else s.ack := by unfold assignExec; simp
    have hab : (assignExec P s n).abort = s.abort := by unfold assignExec; simp
    refine ⟨i1.trans hab, fun k hk => i2 k ?_, fun k hk he => ?_⟩
    · rw [hack]; split
      · unfold set; split <;> simp [hk]
      · exact hk
    · rcases List.mem_cons.1 hk with e | e
      · subst e; exact i2 k (by rw [hack, if_pos he]; simp [set])
      · exact i3 k e (by rw [hst]; exact he)

theorem retractAll_abort (l : List NodeId) (s : St Val Env) : (l.foldl (assignRetract P) s).ack = s.ack ∧
    (∀ k, s.abort k = true → (l.foldl (assignRetract P) s).abort k = true) ∧
    ∀ k ∈ l, s.st k = .failing → (l.foldl (assignRetract P) s).abort k = true := by
  induction l generalizing s with
  | nil => exact ⟨rfl, fun _ h => h, by simp⟩
  | cons n l ih =>
    obtain ⟨i1, i2, i3⟩ := ih (assignRetract P s n)
    have hst : (assignRetract P s n).st = s.st := by unfold assignRetract; simp
    have hab : (assignRetract P s n).abort = if s.st n = .failing then set s.abort n true else s.abort := by unfold assignRetract; simp
    have hack : (assignRetract P s n).ack = s.ack := by unfold assignRetract; simp
    refine ⟨i1.trans hack, fun k hk => i2 k ?_, fun k hk he => ?_⟩
    · rw [hab]; split
      · unfold set; split <;> simp [hk]
      · exact hk
    · rcases List.mem_cons.1 hk with e | e
      · subst e; exact i2 k (by rw [hab, if_pos he]; simp [set])
      · exact i3 k e (by rw [hst]; exact he)

/-- After the end of a macro step nothing is left to do. -/
theorem AInv.finishStep {s : St Val Env} (h : AInv P s) (acc rej) : AInv P (finishStep P acc rej s) ∧
    (Exec.finishStep P acc rej s).asg = [] ∧ (Exec.finishStep P acc rej s).ret = [] := by
  obtain ⟨a1, a2, a3⟩ := assignAll_ack (P := P) s.asg s
  obtain ⟨f1, f2, f3, f4, f5, f6, f7, f8, f9, f10⟩ := assignAll_fields (P := P) s.asg s
  unfold Exec.finishStep performAssignments outbound
  simp only
  generalize s.asg.foldl (Exec.assignExec P) s = x at *
  obtain ⟨b1, b2, b3⟩ := retractAll_abort (P := P) x.ret { x with asg := [] }
  obtain ⟨g1, g2, g3, g4, g5, g6, g7, g8, g9, g10⟩ := retractAll_fields (P := P) x.ret { x with asg := [] }
  generalize x.ret.foldl (Exec.assignRetract P) { x with asg := [] } = y at *
  refine ⟨⟨?_, ?_⟩, g8, trivial⟩
  · intro k ht hk
    left
    have hk : s.st k = .executing := by rw [← f8]; have := hk; rw [← congrFun g7 k]; exact this
    show y.ack k = true
    rw [b1]
    show x.ack k = true
    rcases h.made k ht hk with g | g
    · exact a2 k g
    · exact a3 k g hk
  · intro k ht hk
    left
    have hk : x.st k = .failing := by rw [← congrFun g7 k]; exact hk
    show y.abort k = true
    have hs : s.st k = .failing := by rw [← f8]; exact hk
    rcases h.undone k ht hs with g | g
    · exact b2 k (by show x.abort k = true; rw [a1]; exact g)
    · exact b3 k (by rw [f4]; exact g) hk

theorem Reach.ainv {ph : Phase} {s : St Val Env} (h : Reach P ph s) : AInv P s ∧ (ph = .idle → s.asg = [] ∧ s.ret = []) := by
  induction h with
  | init vars env => exact ⟨⟨fun n _ h => (by cases h), fun n _ h => (by cases h)⟩, fun _ => ⟨rfl, rfl⟩⟩
  | @step ph ph' s s' hr hs ih =>
    obtain ⟨hI, hid, hchk⟩ := hr.inv
    obtain ⟨h1, h2⟩ := ih
    cases hs with
    | ext _ e ns => exact ⟨h1.congr (by simp) (by simp) (by simp) (by simp) (by simp), fun _ => by simpa using h2 rfl⟩
    | ackUpd _ n =>
      unfold ackUpdate
      split
      · refine ⟨⟨fun k ht hk => ?_, fun k ht hk => ?_⟩, fun _ => by simpa using h2 rfl⟩
        · simp only [notifyAll_ack, notifyAll_asg, notifyAll_st] at hk ⊢
          rcases h1.made k ht hk with g | g
          · left; unfold set; split <;> simp [g]
          · exact .inr g
        · simp only [notifyAll_abort, notifyAll_ret, notifyAll_st] at hk ⊢
          exact h1.undone k ht hk
      · exact ⟨h1, h2⟩
    | deletePlans _ => exact ⟨h1.congr rfl rfl rfl rfl rfl, h2⟩
    | begin _ => exact ⟨h1.congr rfl rfl rfl rfl rfl, by simp⟩
    | check _ n rest hc =>
      obtain ⟨e1, _, _, _, _, _, e7, e8, _, e10, e11, _⟩ := (checkOne_frame (P := P) n rest s).fields
      exact ⟨h1.congr e1 e7 e8 e10 e11, by simp⟩
    | resolve _ hc hne =>
      obtain ⟨e1, _, _, _, _, _, e7, e8, _, e10, e11, _⟩ := (resolve_frame (P := P) s).fields
      exact ⟨h1.congr e1 e7 e8 e10 e11, by simp⟩
    | trans _ n rest hc => exact ⟨h1.transOne hI hc, by simp⟩
    | again _ hc hn hne => exact ⟨h1.congr rfl rfl rfl rfl rfl, by simp⟩
    | finishQuiet _ acc rej hc hne hp =>
      obtain ⟨e1, _, _, _, _, _, e7, e8, _, e10, e11, _⟩ := (resolve_frame (P := P) s).fields
      obtain ⟨g1, g2⟩ := (h1.congr e1 e7 e8 e10 e11).finishStep acc rej
      exact ⟨g1, fun _ => g2⟩
    | finish _ acc rej hc hne hp =>
      obtain ⟨g1, g2⟩ := h1.finishStep acc rej
      exact ⟨g1, fun _ => g2⟩

/-! ## At rest -/

theorem DInv.stuck {s : St Val Env} (hI : Inv P s) (hid : s.change = []) (hD : DInv P s) (hc : s.cand = []) {k}
    (hroot : (P.node k).anc = [] → s.st k ≠ .inactive) (hd : decideNext P s.obs k ≠ none) :
    s.st k = .waiting ∧ acquiresResources P k = true := by
  cases hq : s.q k with
  | none =>
    rcases hD.quiet k hq with g | g
    · exact absurd g hd
    · exact absurd g.2 (hroot g.1)
  | check => have := (hI.Q.candIff k).2 hq; rw [hc] at this; cases this
  | delete =>
    obtain ⟨g1, g2⟩ := hD.del k hq
    refine absurd ?_ hd
    unfold decideNext parentState
    rw [g2, show s.obs.st k = .finished from g1]; rfl
  | transition => have := hI.Q.transIn k (.inl hq); rw [hid] at this; cases this
  | transitionCheck => have := hI.Q.transIn k (.inr hq); rw [hid] at this; cases this
  | _ => exact (hD.acq k (by rw [hq]; trivial)).symm

theorem Within.child (hA : PlanTree P) {r k c : NodeId} (hk : Within P r k) (hc : c ∈ (P.node k).children) :
    Within P r c ∧ r ∈ (P.node c).anc := by
  have e := hA.child k c hc
  have : r ∈ (P.node c).anc := by
    rw [e]
    rcases hk with rfl | hk
    · simp
    · simp [hk]
  exact ⟨.inr this, this⟩

/-- Nothing is running and only the root may be in ITERATION_ENDED. -/
theorem ReachN.rest (hN : Notifies P) (hA : PlanTree P) {s : St Val Env} (h : ReachN P .idle s) (hc : s.cand = []) {r : NodeId}
    (hr : (P.node r).anc = []) (hrs : s.st r ≠ .inactive) (ht : ToldToExit P r s.obs)
    (hcmd : ∀ k, Within P r k → (P.node k).type = .command → s.st k = .failing → (P.node k).abortDone s.obs = some true)
    (hupd : ∀ k, Within P r k → (P.node k).type = .update → s.st k = .failing → s.ack k = true) (k) (hk : Within P r k) :
    ¬ Running (s.st k) ∧ (r ∈ (P.node k).anc → s.st k ≠ .iterationEnded) := by
  have hT := hA.tree
  obtain ⟨hI, hid, _⟩ := h.reach.inv
  have hD := h.dinv hN hT
  have hAI := h.reach.ainv
  have hNL := (h.noneLeft hN hT).1 (by simp)
  obtain ⟨ht2, hht⟩ := hA.finite
  have rootOK : ∀ k, Within P r k → (P.node k).anc = [] → s.st k ≠ .inactive := by
    intro k hk e
    rcases hk with rfl | hk
    · exact hrs
    · rw [e] at hk; cases hk
  have none_of : ∀ k, Within P r k → s.st k ≠ .waiting → decideNext P s.obs k = none := by
    intro k hk hw
    exact Classical.byContradiction fun e => hw (hD.stuck hI (hid rfl) hc (rootOK k hk) e).1
  have ended : ∀ k, Within P r k → r ∈ (P.node k).anc → s.st k ≠ .iterationEnded := by
    intro k hk ha he
    have hd := none_of k hk (by rw [he]; simp)
    have hx : isT (conds P s.obs k).ancExit = true := by
      obtain ⟨c, hc', hv⟩ := ht
      show isT (ancExit P s.obs k) = true
      unfold ancExit
      rw [foldr_orT (fun a => evalC (P.node a).exit s.obs) _ ha (by simp [evalC, hc', hv])]; rfl
    unfold decideNext at hd
    rw [show s.obs.st k = .iterationEnded from he] at hd
    simp [getDest, fromIterationEnded, hx] at hd
  refine ⟨?_, ended k hk⟩
  generalize hn : ht2 k = n
  induction n using Nat.strongRecOn generalizing k with
  | _ n ih =>
    intro hrun
    have hw : s.st k ≠ .waiting := by rcases hrun with g | g | g <;> rw [g] <;> simp
    have hd := none_of k hk hw
    have hex := (hI.N.ok k).1
    have hx := told_conds ht hk
    obtain ⟨da, hab, hda⟩ := abnormal_told hx
    unfold decideNext at hd
    rcases hrun with g | g | g <;> rw [show s.obs.st k = _ from g] at hd <;> rw [g] at hex
    · cases htp : (P.node k).type with
      | empty =>
        rw [htp] at hd
        simp only [getDest, fromExecuting] at hd
        by_cases h1 : isT (conds P s.obs k).ancExit = true
        · rw [if_pos h1] at hd; cases hd
        · rw [if_neg h1] at hd
          rcases hx with hx | hx
          · exact h1 hx
          · rw [if_pos hx] at hd; cases hd
      | assignment =>
        have hack : s.ack k = true := by
          rcases hAI.1.made k htp g with e | e
          · exact e
          · rw [(hAI.2 rfl).1] at e; cases e
        have hac : isT (conds P s.obs k).actionComplete = true := by simp [conds, htp, isT, St.obs, hack]
        rw [htp] at hd
        simp only [getDest, fromExecuting, hab, hac, if_true] at hd
        cases hd
      | _ => rw [htp] at hd; simp only [getDest, fromExecuting, hab] at hd; cases hd
    · cases htp : (P.node k).type <;> rw [htp] at hd hex <;>
        first
        | (simp [StateExists] at hex; done)
        | (simp only [getDest, fromFinishing, hab] at hd; cases hd; done)
    · have done : (match (P.node k).type with
          | .assignment | .command => isT (conds P s.obs k).abortComplete
          | .list | .update => isT (conds P s.obs k).actionComplete
          | .empty => false) = true := by
        cases htp : (P.node k).type with
        | empty => rw [htp] at hex; simp [StateExists] at hex
        | assignment =>
          have : s.abort k = true := by
            rcases hAI.1.undone k htp g with e | e
            · exact e
            · rw [(hAI.2 rfl).2] at e; cases e
          simp [conds, htp, isT, St.obs, this]
        | command => have := hcmd k hk htp g; simp [conds, htp, isT, this]
        | update => have := hupd k hk htp g; simp [conds, htp, isT, St.obs, this]
        | list =>
          have : allWaitingOrFinished s.obs (P.node k).children = true := by
            unfold allWaitingOrFinished
            rw [List.all_eq_true]
            intro c hcc
            obtain ⟨hw1, hw2⟩ := hk.child hA hcc
            have i1 := ih (ht2 c) (hn ▸ hht k c hcc) c hw1 rfl
            have i2 := ended c hw1 hw2
            have i3 := hNL k c _ (hA.child k c hcc) (.inl g)
            show (s.st c == .waiting || s.st c == .finished) = true
            cases hsc : s.st c <;> simp_all [Running]
          simp [conds, htp, isT, this]
      cases htp : (P.node k).type <;> rw [htp] at hd done <;> simp only at done <;>
        first
        | (cases done; done)
        | (simp only [getDest, fromFailing, done, if_true] at hd; split at hd <;> cases hd)

end Verif.Exec
