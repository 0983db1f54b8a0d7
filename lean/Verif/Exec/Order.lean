import Verif.Exec.Serve
/-
The order in which waiting nodes are kept and served.
-/
set_option linter.unusedSimpArgs false
namespace Verif.Exec
open Verif.Node

variable {Val Env : Type} {P : Plan Val Env}

/-! ## The pending queue is sorted -/

theorem insertPending_split (n : NodeId) (l : List NodeId)
    (hl : l.Pairwise fun a b => (P.node a).priority ≤ (P.node b).priority) :
    ∃ l1 l2, l = l1 ++ l2 ∧ insertPending P n l = l1 ++ n :: l2 ∧ (∀ m ∈ l1, (P.node m).priority ≤ (P.node n).priority) ∧
      (∀ m ∈ l2, (P.node n).priority < (P.node m).priority) := by
  induction l with
  | nil => exact ⟨[], [], rfl, rfl, by simp, by simp⟩
  | cons m rest ih =>
    obtain ⟨h1, h2⟩ := List.pairwise_cons.1 hl
    simp only [insertPending]
    split
    · rename_i hlt
      refine ⟨[], m :: rest, rfl, rfl, by simp, ?_⟩
      intro k hk
      rcases List.mem_cons.1 hk with rfl | hk
      · exact hlt
      · have := h1 k hk; omega
    · rename_i hnl
      obtain ⟨l1, l2, e1, e2, e3, e4⟩ := ih h2
      refine ⟨m :: l1, l2, by rw [e1]; rfl, by rw [e2]; rfl, ?_, e4⟩
      intro k hk
      rcases List.mem_cons.1 hk with rfl | hk
      · omega
      · exact e3 k hk

theorem QueueMove.sorted {l l' : List NodeId} (h : QueueMove P l l') (hs : Sorted P l) : Sorted P l' := by
  cases h with
  | keep hl => exact hs.sublist hl
  | insert n h1 h2 =>
    unfold Sorted at *
    rw [List.pairwise_append] at hs ⊢
    obtain ⟨a, b, c⟩ := hs
    refine ⟨a, List.pairwise_cons.2 ⟨fun m hm => Int.le_of_lt (h2 m hm), b⟩, ?_⟩
    intro x hx y hy
    rcases List.mem_cons.1 hy with rfl | hy
    · exact h1 x hx
    · exact c x hx y hy

theorem tryAcquire_pending (n) (s : St Val Env) : (tryAcquire P n s).2.pending = s.pending := by
  obtain ⟨_, _, _, _, e⟩ := tryAcquire_frame P n s; rw [e]

theorem eligible_pending (n) (s : St Val Env) : ((eligible P n s).2.2.pending).Sublist s.pending := by
  unfold eligible
  split <;> simp only
  · split
    · simp only [removePending_pending, computeNext_pending]; exact List.erase_sublist
    · split
      · simp only [addStateChange_pending, removePending_pending, computeNext_pending]; exact List.erase_sublist
      · simp only [computeNext_pending]; exact List.Sublist.refl _
  · split
    · simp only [removePending_pending, computeNext_pending]; exact List.erase_sublist
    · split
      · simp only [addStateChange_pending, removePending_pending, computeNext_pending]; exact List.erase_sublist
      · simp only [computeNext_pending]; exact List.Sublist.refl _
  all_goals exact List.Sublist.refl _

theorem collect_pending (prio l) (s : St Val Env) : ((collect P prio l s).2.2.pending).Sublist s.pending := by
  induction l generalizing s with
  | nil => exact List.Sublist.refl _
  | cons n rest ih =>
    simp only [collect]
    split
    · split
      · exact eligible_pending n s
      · exact (ih _).trans (eligible_pending n s)
    · exact List.Sublist.refl _

theorem attempt_pending (n) (s : St Val Env) : ((attempt P n s).pending).Sublist s.pending := by
  unfold attempt
  split
  · rw [addStateChange_pending, removePending_pending, tryAcquire_pending]; exact List.erase_sublist
  · simp only [tryAcquire_pending]; exact List.Sublist.refl _

theorem acquireGroup_pending (l) (s : St Val Env) : ((acquireGroup P l s).pending).Sublist s.pending := by
  induction l generalizing s with
  | nil => exact List.Sublist.refl _
  | cons n l ih => rw [acquireGroup_cons]; exact (ih _).trans (attempt_pending n s)

theorem resolveFrom_pending (l) (s : St Val Env) : ((resolveFrom P l s).pending).Sublist s.pending := by
  generalize hlen : l.length = len
  induction len using Nat.strongRecOn generalizing l s with
  | _ len ih =>
    cases l with
    | nil => rw [resolveFrom]; exact List.Sublist.refl _
    | cons n rest =>
      rw [resolveFrom]
      have := resolveFrom_lt (P := P) n rest s
      exact (ih _ (by omega) _ _ rfl).trans ((acquireGroup_pending _ _).trans (collect_pending _ _ _))

theorem checkOne_pending (n rest) (s : St Val Env) (hs : Sorted P s.pending) :
    QueueMove P s.pending (checkOne P n { s with cand := rest }).pending := by
  unfold checkOne
  simp only
  split
  · rw [computeNext_pending]; exact .keep (List.Sublist.refl _)
  · split
    · unfold addPending
      simp only [computeNext_pending]
      obtain ⟨l1, l2, e1, e2, e3, e4⟩ := insertPending_split (P := P) n s.pending hs
      rw [e2, e1]
      exact .insert n e3 e4
    · rw [addStateChange_pending, computeNext_pending]; exact .keep (List.Sublist.refl _)

theorem Reach.queueMove {ph ph' : Phase} {s s' : St Val Env} (hr : Reach P ph s) (hs : Step P (ph, s) (ph', s')) (hsort : Sorted P s.pending) :
    QueueMove P s.pending s'.pending := by
  have refl : ∀ l, QueueMove P l l := fun l => .keep (List.Sublist.refl _)
  have fin : ∀ (s : St Val Env) acc rej, (finishStep P acc rej s).pending = s.pending := by
    intro s acc rej
    have h1 : ∀ (l : List NodeId) (s : St Val Env), (l.foldl (assignExec P) s).pending = s.pending := by
      intro l
      induction l with
      | nil => intro s; rfl
      | cons n l ih => intro s; rw [List.foldl_cons, ih]; unfold assignExec; simp
    have h2 : ∀ (l : List NodeId) (s : St Val Env), (l.foldl (assignRetract P) s).pending = s.pending := by
      intro l
      induction l with
      | nil => intro s; rfl
      | cons n l ih => intro s; rw [List.foldl_cons, ih]; unfold assignRetract; simp
    unfold Exec.finishStep outbound performAssignments
    simp only [h2, h1]
  cases hs with
  | ext _ e ns => simp only [notifyAll_pending]; exact refl _
  | ackUpd _ n =>
    unfold ackUpdate
    split
    · simp only [notifyAll_pending]; exact refl _
    · exact refl _
  | deletePlans _ => exact refl _
  | begin _ => exact refl _
  | check _ n rest hc => exact checkOne_pending n rest s hsort
  | resolve _ hc hne => exact .keep (resolveFrom_pending _ _)
  | trans _ n rest hc =>
    have : (transOne P n { s with change := rest }).pending = s.pending := by
      obtain ⟨hI, _⟩ := hr.inv
      obtain ⟨d, o, oo, hd, hos, hnx, hdiag, _⟩ := transOne_fields hI hc
      have hne : d.state ≠ s.st n := by
        intro e
        have := getDest_ne hd (by rw [hos]; exact (hI.N.ok n).1)
        exact this (by rw [hos]; exact e)
      have key : ∀ s1 : St Val Env, s1.nx = s.nx → s1.st = s.st → s1.pending = s.pending → (transition P n s1).pending = s.pending := by
        intro s1 g1 g2 g3
        rw [transition_pending P n s1 d.state (by rw [g1]; exact hnx) (by rw [g2]; exact hne), g3]
      unfold Exec.transOne
      apply key
      · simp only; split <;> simp
      · simp only; split <;> simp
      · simp only; split <;> simp
    rw [this]; exact refl _
  | again _ hc hn hne => exact refl _
  | finishQuiet _ acc rej hc hne hp => rw [fin]; exact .keep (resolveFrom_pending _ _)
  | finish _ acc rej hc hne hp => rw [fin]; exact refl _

theorem Reach.sorted {ph : Phase} {s : St Val Env} (hr : Reach P ph s) : Sorted P s.pending := by
  induction hr with
  | init vars env => exact List.Pairwise.nil
  | step hr hs ih => exact (hr.queueMove hs ih).sorted ih

/-! ## Attempts are made in order -/

/-- One attempt, seen from outside: either all resources are free and the node gets them, or not, and then it gets nothing (and gives
back what it had). -/
def Attempt (P : Plan Val Env) (n : NodeId) (H H' : Res → Option NodeId) : Prop :=
  ((resources P n).Nodup ∧ (∀ r ∈ resources P n, H r = none) ∧ ∀ r, H' r = if r ∈ resources P n then some n else H r) ∨
  (¬ ((resources P n).Nodup ∧ ∀ r ∈ resources P n, H r = none) ∧ ∀ r, H' r = H r ∨ (H' r = none ∧ H r = some n))

inductive Tries (P : Plan Val Env) : List NodeId → (Res → Option NodeId) → (Res → Option NodeId) → Prop
  | nil (H) : Tries P [] H H
  | cons {n l H H' H''} : Attempt P n H H' → Tries P l H' H'' → Tries P (n :: l) H H''

theorem Tries.append {l l' : List NodeId} {H H' H''} (h : Tries P l H H') (h' : Tries P l' H' H'') : Tries P (l ++ l') H H'' := by
  induction h with
  | nil => exact h'
  | cons a _ ih => exact .cons a (ih h')

theorem Tries.split {l1 l2 : List NodeId} {H H'} (h : Tries P (l1 ++ l2) H H') : ∃ Hm, Tries P l1 H Hm ∧ Tries P l2 Hm H' := by
  induction l1 generalizing H with
  | nil => exact ⟨H, .nil _, h⟩
  | cons n l ih =>
    cases h with
    | cons a b =>
      obtain ⟨Hm, h1, h2⟩ := ih b
      exact ⟨Hm, .cons a h1, h2⟩

theorem Attempt.gain {n : NodeId} {H H'} (h : Attempt P n H H') {r k} (hk : H' r = some k) : H r = some k ∨ k = n := by
  rcases h with ⟨_, _, h⟩ | ⟨_, h⟩
  · rw [h r] at hk
    split at hk
    · right; simpa using hk.symm
    · exact .inl hk
  · rcases h r with g | ⟨g, _⟩
    · rw [g] at hk; exact .inl hk
    · rw [g] at hk; cases hk

theorem Attempt.keep {n : NodeId} {H H'} (h : Attempt P n H H') {r k} (hk : H r = some k) (hne : k ≠ n) : H' r = some k := by
  rcases h with ⟨_, h1, h⟩ | ⟨_, h⟩
  · rw [h r]
    split
    · rename_i hr; rw [h1 r hr] at hk; cases hk
    · exact hk
  · rcases h r with g | ⟨_, g⟩
    · rw [g]; exact hk
    · rw [hk] at g; simp at g; exact absurd g hne

theorem Tries.gain {l : List NodeId} {H H'} (h : Tries P l H H') {r k} (hk : H' r = some k) : H r = some k ∨ k ∈ l := by
  induction h with
  | nil => exact .inl hk
  | cons a _ ih =>
    rcases ih hk with g | g
    · rcases a.gain g with g | g
      · exact .inl g
      · right; simp [g]
    · right; simp [g]

theorem Tries.keep {l : List NodeId} {H H'} (h : Tries P l H H') {r k} (hk : H r = some k) (hne : k ∉ l) : H' r = some k := by
  induction h with
  | nil => exact hk
  | cons a _ ih =>
    simp only [List.mem_cons, not_or] at hne
    exact ih (a.keep hk hne.1) hne.2

theorem attempt_Attempt (n) (s : St Val Env) : Attempt P n s.holder (attempt P n s).holder := by
  have h2 : (attempt P n s).holder = (tryAcquire P n s).2.holder := by
    unfold attempt
    split
    · rw [addStateChange_holder, removePending_holder]
    · rfl
  rw [h2]
  obtain ⟨g1, g2, g3⟩ := tryAcquire_spec P n s
  cases hs : (tryAcquire P n s).1 with
  | true =>
    obtain ⟨a, b⟩ := g1.1 hs
    exact .inl ⟨a, b, g2 hs⟩
  | false =>
    refine .inr ⟨(fun h => by rw [g1.2 h] at hs; cases hs), fun r => ?_⟩
    rcases (g3 hs).2.2 r with g | ⟨g, g', _⟩
    · exact .inl g
    · exact .inr ⟨g, g'⟩

theorem acquireGroup_Tries (l) (s : St Val Env) : Tries P l s.holder (acquireGroup P l s).holder := by
  induction l generalizing s with
  | nil => exact .nil _
  | cons n l ih => rw [acquireGroup_cons]; exact .cons (attempt_Attempt n s) (ih _)

theorem eligible_holder (n) (s : St Val Env) : (eligible P n s).2.2.holder = s.holder := by
  unfold eligible
  split <;> simp only
  · split
    · simp only [removePending_holder, computeNext_holder]
    · split
      · simp only [addStateChange_holder, removePending_holder, computeNext_holder]
      · simp only [computeNext_holder]
  · split
    · simp only [removePending_holder, computeNext_holder]
    · split
      · simp only [addStateChange_holder, removePending_holder, computeNext_holder]
      · simp only [computeNext_holder]

theorem eligible_q (n k) (s : St Val Env) (hk : k ≠ n) : (eligible P n s).2.2.q k = s.q k := by
  have h1 : (removePending P n (computeNext P n s)).q k = s.q k := by rw [removePending_q, if_neg hk, computeNext_q]
  have h2 : (addStateChange n (removePending P n (computeNext P n s))).q k = s.q k := by
    rw [addStateChange_q _ _ _ (by rw [removePending_q]; simp), if_neg hk, h1]
  unfold eligible
  split <;> simp only
  · split
    · simp only [set_ne _ _ _ _ hk, h1]
    · split
      · simp only [set_ne _ _ _ _ hk, h2]
      · simp only [set_ne _ _ _ _ hk, computeNext_q]
  · split
    · simp only [h1]
    · split
      · simp only [h2]
      · simp only [computeNext_q]

/-- What `collect` returns: the nodes to try are, in order, those of the group that want to try, up to the first that leaves the queue;
after that nothing is visited any more. -/
theorem collect_order (prio l) (s : St Val Env) (hnd : l.Nodup) :
    ((collect P prio l s).1 ++ (collect P prio l s).2.1).Sublist l ∧ (collect P prio l s).2.2.holder = s.holder ∧
    (∀ k ∈ (collect P prio l s).2.1, (collect P prio l s).2.2.q k = s.q k) ∧
    ∀ l1 m l2, l = l1 ++ m :: l2 → IsTry (s.q m) → m ∈ (collect P prio l s).1 ++ (collect P prio l s).2.1 ∨
      ∀ k ∈ l2, k ∉ (collect P prio l s).1 ++ (collect P prio l s).2.1 := by
  induction l generalizing s with
  | nil => exact ⟨List.Sublist.refl _, rfl, by simp [collect], by intro l1 m l2 h; simp at h⟩
  | cons n rest ih =>
    obtain ⟨hn, hr⟩ := List.nodup_cons.1 hnd
    by_cases hp : (P.node n).priority = prio
    · cases hrm : (eligible P n s).2.1 with
      | true =>
        have hc : collect P prio (n :: rest) s = ([], [], (eligible P n s).2.2) := by simp [collect, hp, hrm]
        rw [hc]
        exact ⟨by simp, eligible_holder n s, by simp, fun l1 m l2 _ _ => .inr (by simp)⟩
      | false =>
        obtain ⟨i1, i2, i3, i4⟩ := ih (eligible P n s).2.2 hr
        have hc : collect P prio (n :: rest) s =
            (if (eligible P n s).1 then n :: (collect P prio rest (eligible P n s).2.2).1 else (collect P prio rest (eligible P n s).2.2).1,
             (collect P prio rest (eligible P n s).2.2).2.1, (collect P prio rest (eligible P n s).2.2).2.2) := by
          simp [collect, hp, hrm]
        rw [hc]
        generalize hcr : collect P prio rest (eligible P n s).2.2 = c at *
        simp only
        refine ⟨?_, i2.trans (eligible_holder n s), ?_, ?_⟩
        · split
          · exact List.Sublist.cons_cons n i1
          · exact i1.cons n
        · intro k hk
          rw [i3 k hk]
          exact eligible_q n k s (fun e => hn (e ▸ i1.subset (by simp [hk])))
        · intro l1 m l2 he ht
          cases l1 with
          | nil =>
            simp only [List.nil_append, List.cons.injEq] at he
            obtain ⟨rfl, rfl⟩ := he
            have : (eligible P n s).1 = true := by
              revert hrm
              unfold eligible
              split
              · rename_i hq; rw [hq] at ht; exact ht.elim
              · simp only; split
                · simp
                · split <;> simp
              · simp
              · rename_i hq; rw [hq] at ht; exact ht.elim
              · intro _
                revert ht
                generalize s.q n = x at *
                cases x <;> simp_all [IsTry]
            rw [if_pos this]
            exact .inl (by simp)
          | cons x l1 =>
            simp only [List.cons_append, List.cons.injEq] at he
            obtain ⟨rfl, rfl⟩ := he
            have hmn : m ≠ n := fun e => hn (by rw [← e]; simp)
            have hsub : ∀ k, k ∈ c.1 ++ c.2.1 → k ∈ (if (eligible P n s).1 then n :: c.1 else c.1) ++ c.2.1 := by
              intro k hk; split
              · simp only [List.cons_append, List.mem_cons]; exact .inr hk
              · exact hk
            rcases i4 l1 m l2 rfl (by rw [eligible_q n m s hmn]; exact ht) with g | g
            · exact .inl (hsub m g)
            · right
              intro k hk hk'
              refine g k hk ?_
              split at hk'
              · simp only [List.cons_append, List.mem_cons] at hk'
                rcases hk' with rfl | hk'
                · exact absurd (by simp [hk]) hn
                · exact hk'
              · exact hk'
    · have hc : collect P prio (n :: rest) s = ([], n :: rest, s) := by simp [collect, hp]
      rw [hc]
      exact ⟨List.Sublist.refl _, rfl, fun _ _ => rfl, fun l1 m l2 he _ => .inl (by rw [he]; simp)⟩

theorem behind_sublist {l1 l2 a b : List NodeId} {m k : NodeId} (hnd : (l1 ++ m :: l2).Nodup) (hs : (a ++ m :: b).Sublist (l1 ++ m :: l2))
    (hk : k ∈ l2) (hx : k ∈ a ++ m :: b) : k ∈ b := by
  obtain ⟨n1, n2, n3⟩ := List.nodup_append.1 hnd
  have hml2 : m ∉ l2 := (List.nodup_cons.1 n2).1
  have hkm : k ≠ m := fun e => hml2 (e ▸ hk)
  have hkl1 : k ∉ l1 := fun hc => n3 k hc k (by simp [hk]) rfl
  rcases List.mem_append.1 hx with g | g
  · exfalso
    have h1 : ([k] ++ [m]).Sublist (a ++ m :: b) :=
      List.Sublist.append (List.singleton_sublist.2 g) (List.Sublist.cons_cons m (List.nil_sublist b))
    obtain ⟨x, y, e, hx, hy⟩ := List.sublist_append_iff.1 (h1.trans hs)
    cases x with
    | nil =>
      simp only [List.nil_append] at e
      rw [← e] at hy
      rcases List.sublist_cons_iff.1 hy with g | ⟨r, g, _⟩
      · exact hml2 (g.subset (by simp))
      · simp at g; exact hkm g.1
    | cons z x =>
      simp only [List.cons_append, List.cons.injEq] at e
      rw [← e.1] at hx
      exact hkl1 (hx.subset (by simp))
  · rcases List.mem_cons.1 g with g | g
    · exact absurd g hkm
    · exact g

theorem isTry_avail {x : QStatus} (h : IsTry x) : IsTry (availQ x) := by cases x <;> simp_all [IsTry, availQ]

theorem acquireGroup_try (l) {s : St Val Env} {k} (h : IsTry (s.q k)) (hk : k ∉ l) : IsTry ((acquireGroup P l s).q k) := by
  induction l generalizing s with
  | nil => exact h
  | cons m l ih =>
    rw [acquireGroup_cons]
    simp only [List.mem_cons, not_or] at hk
    refine ih ?_ hk.2
    rcases attempt_q (P := P) m k s hk.1 with g | g <;> rw [g]
    · exact h
    · exact isTry_avail h

/-- In a resolution the attempts are made in queue order, and if a node wants to try but does not come to it, nobody behind it does. -/
theorem resolveFrom_Tries (l) (s : St Val Env) (hnd : l.Nodup) :
    ∃ tried : List NodeId, tried.Sublist l ∧ Tries P tried s.holder (resolveFrom P l s).holder ∧
      ∀ l1 m l2, l = l1 ++ m :: l2 → IsTry (s.q m) → m ∈ tried ∨ ∀ k ∈ l2, k ∉ tried := by
  generalize hlen : l.length = len
  induction len using Nat.strongRecOn generalizing l s with
  | _ len ih =>
    cases l with
    | nil => rw [resolveFrom]; exact ⟨[], List.Sublist.refl _, .nil _, by intro l1 m l2 h; simp at h⟩
    | cons n rest =>
      rw [resolveFrom]
      have hlt := resolveFrom_lt (P := P) n rest s
      obtain ⟨c1, c2, c3, c4⟩ := collect_order (P := P) (P.node n).priority (n :: rest) s hnd
      generalize collect P (P.node n).priority (n :: rest) s = t at *
      have hnd2 : (t.1 ++ t.2.1).Nodup := c1.nodup hnd
      obtain ⟨hn1, hn2, hdis⟩ := List.nodup_append.1 hnd2
      obtain ⟨tried, h1, h2, h3⟩ := ih _ (by omega) t.2.1 (acquireGroup P t.1 t.2.2) hn2 rfl
      refine ⟨t.1 ++ tried, (List.Sublist.append (List.Sublist.refl _) h1).trans c1, ?_, ?_⟩
      · rw [← c2]; exact (acquireGroup_Tries t.1 t.2.2).append h2
      · intro l1 m l2 he ht
        have hout : ∀ k, k ∉ t.1 ++ t.2.1 → k ∉ t.1 ++ tried := by
          intro k hk hk'
          rcases List.mem_append.1 hk' with g | g
          · exact hk (List.mem_append_left _ g)
          · exact hk (List.mem_append_right _ (h1.subset g))
        rcases c4 l1 m l2 he ht with g | g
        · rcases List.mem_append.1 g with g | g
          · exact .inl (List.mem_append_left _ g)
          · -- in a later group
            obtain ⟨a, b, hab⟩ := List.append_of_mem g
            have hm1 : m ∉ t.1 := fun hc => hdis m hc m g rfl
            rcases h3 a m b hab (acquireGroup_try t.1 (by rw [c3 m g]; exact ht) hm1) with g' | g'
            · exact .inl (List.mem_append_right _ g')
            · right
              intro k hk hk'
              -- behind `m` in the whole queue, hence behind `m` in the rest
              have hsub : (t.1 ++ a ++ m :: b).Sublist (l1 ++ m :: l2) := by
                rw [← he]; rw [List.append_assoc, ← hab]; exact c1
              have hnd' : (l1 ++ m :: l2).Nodup := by rw [← he]; exact hnd
              have hkx : k ∈ t.1 ++ a ++ m :: b := by
                rw [List.append_assoc, ← hab]
                rcases List.mem_append.1 hk' with g | g
                · exact List.mem_append_left _ g
                · exact List.mem_append_right _ (h1.subset g)
              have hkb := behind_sublist hnd' hsub hk hkx
              rcases List.mem_append.1 hk' with g'' | g''
              · exact hdis k g'' k (by rw [hab]; simp [hkb]) rfl
              · exact g' k hkb g''
        · exact .inr fun k hk => hout k (g k hk)

theorem Tries.priority {tried : List NodeId} {H H' : Res → Option NodeId} (h : Tries P tried H H') (hnd : tried.Nodup) {m n : NodeId} {r : Res}
    (hm : m ∈ tried) (hmn : m ≠ n) (hr : r ∈ resources P m) (hn : H' r = some n) :
    ¬ (resources P m).Nodup ∨ ∃ r' ∈ resources P m, (∃ k, H r' = some k) ∨
      ∃ k a b, tried = a ++ m :: b ∧ k ∈ a ∧ H r' ≠ some k ∧ H' r' = some k := by
  obtain ⟨a, b, hab⟩ := List.append_of_mem hm
  rw [hab] at h hnd
  obtain ⟨H1, h1, h2⟩ := h.split
  obtain ⟨n1, n2, n3⟩ := List.nodup_append.1 hnd
  have hmb : m ∉ b := (List.nodup_cons.1 n2).1
  cases h2 with
  | cons ha hb =>
    rename_i H2
    rcases id ha with ⟨g1, g2, g3⟩ | ⟨g1, g2⟩
    · exfalso
      have : H2 r = some m := by rw [g3 r, if_pos hr]
      rw [hb.keep this hmb] at hn
      exact hmn (by simpa using hn)
    · by_cases hnod : (resources P m).Nodup
      · right
        have : ∃ r' ∈ resources P m, H1 r' ≠ none := by
          apply Classical.byContradiction
          intro hc
          refine g1 ⟨hnod, fun x hx => Classical.byContradiction fun hne => hc ⟨x, hx, hne⟩⟩
        obtain ⟨r', hr', hne⟩ := this
        obtain ⟨k, hk⟩ := Option.ne_none_iff_exists'.1 hne
        refine ⟨r', hr', ?_⟩
        rcases h1.gain hk with g | g
        · exact .inl ⟨k, g⟩
        · by_cases hold : H r' = some k
          · exact .inl ⟨k, hold⟩
          · right
            have hkm : k ≠ m := fun e => n3 k g m (by simp) e
            have hkb : k ∉ b := fun hc => n3 k g k (by simp [hc]) rfl
            exact ⟨k, a, b, hab, g, hold, hb.keep (ha.keep hk hkm) hkb⟩
      · exact .inl hnod

end Verif.Exec
