import Verif.Exec.CFrame
import Mathlib.Tactic.ClearExcept
/-
The output queues agree with the log; the effects of a macro step.
-/
namespace Verif.Exec
open Verif.Node

variable {Val Env : Type} {P : Plan Val Env}

/-! ## Lists of events -/

theorem lastStart_append (n : NodeId) (l l' : List (Event Val Env)) (x : Option (Obs Val Env)) :
    lastStart n (l ++ l') x = lastStart n l' (lastStart n l x) := by
  induction l generalizing x with
  | nil => rfl
  | cons e l ih => cases e <;> exact ih _

theorem lastStart_absent (n : NodeId) (l : List (Event Val Env)) {x : Option (Obs Val Env)} (h : ∀ o, .start n o ∉ l) :
    lastStart n l x = x := by
  induction l generalizing x with
  | nil => rfl
  | cons e l ih =>
    have ih' := fun x => ih (x := x) (fun o ho => h o (List.mem_cons_of_mem _ ho))
    cases e with
    | start m o =>
      have : m ≠ n := fun e => h o (by simp [e])
      simp only [lastStart, this, if_false]; exact ih' _
    | _ => exact ih' _

theorem starts_append (t) (l l' : List (Event Val Env)) : starts P t (l ++ l') = starts P t l ++ starts P t l' := by
  simp [starts, List.filterMap_append]

theorem failings_append (t) (l l' : List (Event Val Env)) : failings P t (l ++ l') = failings P t l ++ failings P t l' := by
  simp [failings, List.filterMap_append]

/-- The events logged by a transition. -/
def moveEvents (n : NodeId) (a b : NState) (base o : Obs Val Env) : List (Event Val Env) :=
  .trans n a b base :: (if b = .executing then [.start n o] else [])

theorem starts_move (t n a b) (base o : Obs Val Env) :
    starts P t (moveEvents n a b base o) = if b = .executing ∧ (P.node n).type = t then [(n, o)] else [] := by
  unfold moveEvents starts
  by_cases h : b = .executing
  · by_cases h2 : (P.node n).type = t <;> simp [h, h2]
  · simp [h]

theorem failings_move (t n a b) (base o : Obs Val Env) :
    failings P t (moveEvents n a b base o) = if b = .failing ∧ (P.node n).type = t then [n] else [] := by
  unfold moveEvents failings
  by_cases h : b = .failing
  · by_cases h2 : (P.node n).type = t <;> simp [h, h2]
  · by_cases h3 : b = .executing
    · simp [h3]
    · cases b <;> simp_all

theorem lastStart_move (k n a b) (base o : Obs Val Env) (x) :
    lastStart k (moveEvents n a b base o) x = if b = .executing ∧ n = k then some o else x := by
  unfold moveEvents
  by_cases h : b = .executing
  · by_cases h2 : n = k <;> simp [h, h2, lastStart]
  · simp [h, lastStart]

/-! ## Invariant -/

/-- The node has a body that is fixed when it starts. -/
def HasBody (t : NodeType) : Prop := t = .assignment ∨ t = .command ∨ t = .update

instance (t : NodeType) : Decidable (HasBody t) := inferInstanceAs (Decidable (_ ∨ _ ∨ _))

/-- The part of the invariant that concerns the current macro step, `cur` being its events so far. -/
structure OInv (P : Plan Val Env) (s : St Val Env) (cur : List (Event Val Env)) : Prop where
  moves : ∀ e ∈ cur, IsMove e
  asg : s.asg = (starts P .assignment cur).map Prod.fst
  cmds : s.cmds = (starts P .command cur).map Prod.fst
  upds : s.upds = (starts P .update cur).map Prod.fst
  ret : s.ret = failings P .assignment cur
  aborts : s.aborts = failings P .command cur
  run : ∀ n, Running (s.st n) → ∃ o, lastStart n s.log none = some o ∧ (HasBody (P.node n).type → s.fixed n = (P.node n).rhs o) ∧
    ((P.node n).type = .assignment → s.saved (P.node n).dest = o.vars (P.node n).dest)
  last : ∀ t p, HasBody t → p ∈ starts P t cur → lastStart p.1 s.log none = some p.2
  asgSt : ∀ n ∈ s.asg, s.st n = .executing ∧ n ∉ s.change
  cmdsSt : ∀ n ∈ s.cmds, s.st n = .executing ∧ n ∉ s.change
  retSt : ∀ n ∈ s.ret, s.st n = .failing ∧ n ∉ s.change
  abortsSt : ∀ n ∈ s.aborts, s.st n = .failing ∧ n ∉ s.change
  updsSt : ∀ n ∈ s.upds, (s.st n = .executing ∨ s.st n = .failing) ∧ s.ack n = false ∧ (n ∈ s.change → s.base.ack n = false)
  asgNd : s.asg.Nodup
  cmdsNd : s.cmds.Nodup
  updsNd : s.upds.Nodup
  retNd : s.ret.Nodup
  abortsNd : s.aborts.Nodup

/-- Steps that leave everything of interest alone, and add to the state change queue only on the basis of the current situation. -/
theorem OInv.congr {s s' : St Val Env} {cur} (h : OInv P s cur) (e1 : s'.st = s.st) (e2 : s'.asg = s.asg) (e3 : s'.cmds = s.cmds)
    (e4 : s'.upds = s.upds) (e5 : s'.ret = s.ret) (e6 : s'.aborts = s.aborts) (e7 : s'.log = s.log) (e8 : s'.fixed = s.fixed)
    (e9 : s'.saved = s.saved) (e10 : ∀ n ∈ s.upds, s'.ack n = s.ack n)
    (hc : (s'.change = s.change ∧ s'.base = s.base) ∨
      (s.asg = [] ∧ s.cmds = [] ∧ s.ret = [] ∧ s.aborts = [] ∧ ∀ n ∈ s'.change, s'.base.ack n = s.ack n)) : OInv P s' cur := by
  obtain ⟨g1, g2, g3, g4, g5, g6, g7, g8, g9, g10, g11, g12, g13, g14, g15, g16, g17, g18⟩ := h
  refine ⟨g1, by rw [e2]; exact g2, by rw [e3]; exact g3, by rw [e4]; exact g4, by rw [e5]; exact g5, by rw [e6]; exact g6,
    by rw [e1, e7, e8, e9]; exact g7, by rw [e7]; exact g8, ?_, ?_, ?_, ?_, ?_, by rw [e2]; exact g14, by rw [e3]; exact g15,
    by rw [e4]; exact g16, by rw [e5]; exact g17, by rw [e6]; exact g18⟩
  · rw [e2, e1]
    rcases hc with ⟨hc, _⟩ | hc
    · rw [hc]; exact g9
    · rw [hc.1]; simp
  · rw [e3, e1]
    rcases hc with ⟨hc, _⟩ | hc
    · rw [hc]; exact g10
    · rw [hc.2.1]; simp
  · rw [e5, e1]
    rcases hc with ⟨hc, _⟩ | hc
    · rw [hc]; exact g11
    · rw [hc.2.2.1]; simp
  · rw [e6, e1]
    rcases hc with ⟨hc, _⟩ | hc
    · rw [hc]; exact g12
    · rw [hc.2.2.2.1]; simp
  · intro n hn
    rw [e4] at hn
    rw [e1, e10 n hn]
    obtain ⟨h1, h2, h3⟩ := g13 n hn
    refine ⟨h1, h2, ?_⟩
    rcases hc with ⟨hc, hb⟩ | hc
    · rw [hc, hb]; exact h3
    · intro hm; rw [hc.2.2.2.2 n hm]; exact h2

/-- What an Update node can decide before it has been acknowledged. -/
theorem update_unacked {o : Obs Val Env} {n} {d : Dest} (ht : (P.node n).type = .update) (ha : o.ack n = false)
    (hs : o.st n = .executing ∨ o.st n = .failing) (h : decideNext P o n = some d) : o.st n = .executing ∧ d.state = .failing := by
  unfold decideNext at h
  rw [ht] at h
  have hac : (conds P o n).actionComplete = some (some false) := by simp [conds, ht, ha]
  have hend : (conds P o n).endc = some (some false) := by
    cases he : (P.node n).endc <;> simp [conds, ht, ha, he, and3]
  rcases hs with hs | hs
  · refine ⟨hs, ?_⟩
    rw [hs] at h
    simp only [getDest, fromExecuting] at h
    split at h
    · rename_i d' ha'
      cases h
      unfold abnormal at ha'
      (repeat' split at ha') <;> first | (cases ha'; rfl) | cases ha'
    · rw [hend] at h
      simp [notT] at h
  · rw [hs] at h
    simp only [getDest, fromFailing, hac] at h
    simp [isT] at h

/-! ## Transitions -/

/-- Everything a transition of a queued node does to the fields that matter for output. -/
theorem transOne_fields {s : St Val Env} (h : Inv P s) {n rest} (hc : s.change = n :: rest) :
    ∃ d o oo, decideNext P o n = some d ∧ o.st n = s.st n ∧ s.nx n = some d.state ∧
      Diagram (P.node n).type (s.st n) d.state ∧
      (¬ (d.state = .executing ∧ acquiresResources P n = true) → o = s.base) ∧
      (transOne P n { s with change := rest }).st = set s.st n d.state ∧
      (transOne P n { s with change := rest }).log = s.log ++ moveEvents n (s.st n) d.state s.base oo ∧
      (transOne P n { s with change := rest }).fixed =
        (if d.state = .executing ∧ HasBody (P.node n).type then set s.fixed n ((P.node n).rhs oo) else s.fixed) ∧
      (transOne P n { s with change := rest }).saved =
        (if d.state = .executing ∧ (P.node n).type = .assignment then set s.saved (P.node n).dest (oo.vars (P.node n).dest) else s.saved) ∧
      (transOne P n { s with change := rest }).asg =
        s.asg ++ (if d.state = .executing ∧ (P.node n).type = .assignment then [n] else []) ∧
      (transOne P n { s with change := rest }).cmds =
        s.cmds ++ (if d.state = .executing ∧ (P.node n).type = .command then [n] else []) ∧
      (transOne P n { s with change := rest }).upds =
        s.upds ++ (if d.state = .executing ∧ (P.node n).type = .update then [n] else []) ∧
      (transOne P n { s with change := rest }).ret =
        s.ret ++ (if d.state = .failing ∧ (P.node n).type = .assignment then [n] else []) ∧
      (transOne P n { s with change := rest }).aborts =
        s.aborts ++ (if d.state = .failing ∧ (P.node n).type = .command then [n] else []) ∧
      (transOne P n { s with change := rest }).ack = (if d.state = .executing then set s.ack n false else s.ack) ∧
      (transOne P n { s with change := rest }).change = rest ∧
      (transOne P n { s with change := rest }).base = s.base ∧
      (transOne P n { s with change := rest }).holder = (releaseAll n (released P n (s.st n) d.state) s).holder := by
  have hin : n ∈ s.change := by rw [hc]; simp
  obtain ⟨d, o, hd, hst, hf, hnx, hnxO, hnxF, hbase⟩ := h.N.dec n hin
  obtain ⟨hex, hcons⟩ := h.N.ok n
  have hd' : getDest (P.node n).type (s.st n) (parentState P o n) (s.fail n) (conds P o n) = some d := by
    rw [← hst, ← hf]; exact hd
  have hne := getDest_ne hd' hex
  have hdiag := Verif.Props.Node.C01_destination_in_diagram _ _ _ _ _ _ hex hd'
  unfold Exec.transOne
  simp only
  obtain ⟨s1, hs1, f1, f4, f5, f6, f7, f8, f9, f10, f11, f12, f13, f14, f15, f16⟩ :
      ∃ s1 : St Val Env, (if s.q n = .transitionCheck then Exec.notify n { s with change := rest, q := set s.q n .none }
          else { s with change := rest, q := set s.q n .none }) = s1 ∧ s1.st = s.st ∧
        s1.nx = s.nx ∧ s1.fixed = s.fixed ∧ s1.saved = s.saved ∧ s1.change = rest ∧ s1.asg = s.asg ∧ s1.cmds = s.cmds ∧
        s1.upds = s.upds ∧ s1.ret = s.ret ∧ s1.aborts = s.aborts ∧ s1.ack = s.ack ∧ s1.log = s.log ∧ s1.base = s.base ∧
        s1.holder = s.holder := by
    refine ⟨_, rfl, ?_⟩
    split <;> exact ⟨rfl, rfl, rfl, rfl, rfl, rfl, rfl, rfl, rfl, rfl, rfl, rfl, rfl, rfl⟩
  rw [hs1]
  have hb : s1.nx n = some d.state := by rw [f4]; exact hnx
  have hne1 : d.state ≠ s1.st n := by rw [f1]; exact hne
  refine ⟨d, o, atStart P n d.state s1, hd, hst, hnx, hdiag.1, hbase, ?_, ?_, ?_, ?_, ?_, ?_, ?_, ?_, ?_, ?_, ?_, ?_, ?_⟩
  · rw [transition_st P n s1 _ hb hne1, f1]
  · rw [transition_log P n s1 _ hb hne1, f14, f1, f15]; rfl
  · rw [transition_fixed P n s1 _ hb hne1, f5]; rfl
  · rw [transition_saved P n s1 _ hb hne1, f6]
  · rw [transition_asg P n s1 _ hb hne1, f8]
  · rw [transition_cmds P n s1 _ hb hne1, f9]
  · rw [transition_upds P n s1 _ hb hne1, f10]
  · rw [transition_ret P n s1 _ hb hne1, f11]
  · rw [transition_aborts P n s1 _ hb hne1, f12]
  · rw [transition_ack P n s1 _ hb hne1, f13]
  · rw [transition_change P n s1 _ hb hne1, f7]
  · rw [transition_base P n s1 _ hb hne1, f15]
  · rw [transition_holder P n s1 _ hb hne1]
    funext x
    rw [releaseAll_holder, releaseAll_holder, f1, f16]

theorem mem_ite_singleton {α : Type} {c : Prop} [Decidable c] {a k : α} : k ∈ (if c then [a] else []) ↔ c ∧ k = a := by
  split <;> simp_all

theorem OInv.transOne {s : St Val Env} (hI : Inv P s) {cur} (h : OInv P s cur) {n rest} (hc : s.change = n :: rest) :
    ∃ ev, OInv P (transOne P n { s with change := rest }) (cur ++ ev) ∧
      (transOne P n { s with change := rest }).log = s.log ++ ev := by
  obtain ⟨d, o, oo, hd, hos, hnx, hdiag, hob, e1, e2, e3, e4, e5, e6, e7, e8, e9, e10, e11, e12, e13⟩ := transOne_fields hI hc
  have hI' := (hI.transOne hc).1
  refine ⟨_, ?_, e2⟩
  generalize Exec.transOne P n { s with change := rest } = s' at *
  have hin : n ∈ s.change := by rw [hc]; simp
  have hsub : ∀ k, k ∉ s.change → k ∉ s'.change := by
    intro k hk; rw [e11]; intro h'; exact hk (by rw [hc]; simp [h'])
  have hnr : n ∉ s'.change := by
    rw [e11]
    have := hI.Q.changeNodup; rw [hc] at this; exact (List.nodup_cons.1 this).1
  have hw : d.state = .executing → s.st n = .waiting := by
    intro he
    have := (decide_state hd he).1
    rw [← hos]; exact this
  have hupdn : n ∈ s.upds → s.st n = .executing ∧ d.state = .failing := by
    intro hu
    obtain ⟨g1, g2, g3⟩ := h.updsSt n hu
    have hb : o = s.base := by
      apply hob
      rintro ⟨he, _⟩
      have := hw he
      rcases g1 with g | g <;> rw [this] at g <;> cases g
    have hty : (P.node n).type = .update := by
      rw [h.upds] at hu
      obtain ⟨p, hp, rfl⟩ := List.mem_map.1 hu
      unfold starts at hp
      obtain ⟨e, _, he⟩ := List.mem_filterMap.1 hp
      cases e <;> simp at he
      obtain ⟨h1, rfl⟩ := he; exact h1
    have := update_unacked hty (by rw [hb]; exact g3 hin) (by rw [hos]; exact g1) hd
    rw [hos] at this; exact this
  constructor
  · intro e he
    rcases List.mem_append.1 he with he | he
    · exact h.moves e he
    · unfold moveEvents at he
      rcases List.mem_cons.1 he with rfl | he
      · trivial
      · rw [mem_ite_singleton] at he
        rw [he.2]; trivial
  · rw [e5, h.asg, starts_append, starts_move, List.map_append]; congr 1; split <;> rfl
  · rw [e6, h.cmds, starts_append, starts_move, List.map_append]; congr 1; split <;> rfl
  · rw [e7, h.upds, starts_append, starts_move, List.map_append]; congr 1; split <;> rfl
  · rw [e8, h.ret, failings_append, failings_move]
  · rw [e9, h.aborts, failings_append, failings_move]
  · -- what running nodes have fixed
    intro k hk
    by_cases hkn : k = n
    · subst hkn
      rw [e1, set_self] at hk
      by_cases he : d.state = .executing
      · refine ⟨oo, ?_, ?_, ?_⟩
        · rw [e2, lastStart_append, lastStart_move, if_pos ⟨he, rfl⟩]
        · intro hb; rw [e3, if_pos ⟨he, hb⟩, set_self]
        · intro ht; rw [e4, if_pos ⟨he, ht⟩, set_self]
      · have hr : Running (s.st k) := by
          have hk2 : d.state = .finishing ∨ d.state = .failing := by
            rcases hk with hk | hk | hk
            · exact absurd hk he
            · exact .inl hk
            · exact .inr hk
          clear * - hdiag hk2
          generalize s.st k = a at *
          generalize d.state = b at *
          generalize (P.node k).type = t at *
          rcases hk2 with rfl | rfl <;> cases hdiag <;> simp [Running]
        obtain ⟨o', g1, g2, g3⟩ := h.run k hr
        refine ⟨o', ?_, ?_, ?_⟩
        · rw [e2, lastStart_append, lastStart_move, if_neg (fun hh => he hh.1)]; exact g1
        · rw [e3, if_neg (fun hh => he hh.1)]; exact g2
        · rw [e4, if_neg (fun hh => he hh.1)]; exact g3
    · have hr : Running (s.st k) := by rw [e1, set_ne _ _ _ _ hkn] at hk; exact hk
      obtain ⟨o', g1, g2, g3⟩ := h.run k hr
      refine ⟨o', ?_, ?_, ?_⟩
      · rw [e2, lastStart_append, lastStart_move, if_neg (fun hh => hkn hh.2.symm)]; exact g1
      · intro hb
        rw [e3]
        split
        · rw [set_ne _ _ _ _ hkn]; exact g2 hb
        · exact g2 hb
      · intro ht
        rw [e4]
        split
        · rename_i hcnd
          by_cases hv : (P.node k).dest = (P.node n).dest
          · -- two running assignments to one variable: excluded
            exfalso
            have h1 := hI'.N.held k (.inl hk) _ (var_mem_resources P ht)
            have h2 := hI'.N.held n (.inl (by rw [e1, set_self, hcnd.1]; exact .inl rfl)) _ (var_mem_resources P hcnd.2)
            rw [hv] at h1
            rw [h1] at h2
            exact hkn (by simpa using h2)
          · rw [set_ne _ _ _ _ hv]; exact g3 ht
        · exact g3 ht
  · -- starts in this macro step are the last starts
    intro t p hb hp
    rw [starts_append, List.mem_append, starts_move, mem_ite_singleton] at hp
    rcases hp with hp | ⟨hp1, rfl⟩
    · have hold := h.last t p hb hp
      rw [e2, lastStart_append, lastStart_move]
      split
      · rename_i hh
        exfalso
        -- the node starts again although it is still scheduled
        obtain ⟨hh1, hh2⟩ := hh
        have hwn := hw hh1
        have hm : p.1 ∈ (starts P t cur).map Prod.fst := List.mem_map.2 ⟨p, hp, rfl⟩
        rw [← hh2] at hm
        rcases hb with rfl | rfl | rfl
        · rw [← h.asg] at hm; have := (h.asgSt n hm).1; rw [hwn] at this; cases this
        · rw [← h.cmds] at hm; have := (h.cmdsSt n hm).1; rw [hwn] at this; cases this
        · rw [← h.upds] at hm
          rcases (h.updsSt n hm).1 with g | g <;> rw [hwn] at g <;> cases g
      · exact hold
    · rw [e2, lastStart_append, lastStart_move, if_pos ⟨hp1.1, rfl⟩]
  · intro k hk
    rw [e5, List.mem_append, mem_ite_singleton] at hk
    rcases hk with hk | ⟨hk1, rfl⟩
    · obtain ⟨g1, g2⟩ := h.asgSt k hk
      have hkn : k ≠ n := fun e => g2 (e ▸ hin)
      exact ⟨by rw [e1, set_ne _ _ _ _ hkn]; exact g1, hsub k g2⟩
    · exact ⟨by rw [e1, set_self]; exact hk1.1, hnr⟩
  · intro k hk
    rw [e6, List.mem_append, mem_ite_singleton] at hk
    rcases hk with hk | ⟨hk1, rfl⟩
    · obtain ⟨g1, g2⟩ := h.cmdsSt k hk
      have hkn : k ≠ n := fun e => g2 (e ▸ hin)
      exact ⟨by rw [e1, set_ne _ _ _ _ hkn]; exact g1, hsub k g2⟩
    · exact ⟨by rw [e1, set_self]; exact hk1.1, hnr⟩
  · intro k hk
    rw [e8, List.mem_append, mem_ite_singleton] at hk
    rcases hk with hk | ⟨hk1, rfl⟩
    · obtain ⟨g1, g2⟩ := h.retSt k hk
      have hkn : k ≠ n := fun e => g2 (e ▸ hin)
      exact ⟨by rw [e1, set_ne _ _ _ _ hkn]; exact g1, hsub k g2⟩
    · exact ⟨by rw [e1, set_self]; exact hk1.1, hnr⟩
  · intro k hk
    rw [e9, List.mem_append, mem_ite_singleton] at hk
    rcases hk with hk | ⟨hk1, rfl⟩
    · obtain ⟨g1, g2⟩ := h.abortsSt k hk
      have hkn : k ≠ n := fun e => g2 (e ▸ hin)
      exact ⟨by rw [e1, set_ne _ _ _ _ hkn]; exact g1, hsub k g2⟩
    · exact ⟨by rw [e1, set_self]; exact hk1.1, hnr⟩
  · intro k hk
    rw [e7, List.mem_append, mem_ite_singleton] at hk
    rcases hk with hk | ⟨hk1, rfl⟩
    · obtain ⟨g1, g2, g3⟩ := h.updsSt k hk
      by_cases hkn : k = n
      · subst hkn
        obtain ⟨i1, i2⟩ := hupdn hk
        refine ⟨by rw [e1, set_self]; exact .inr i2, ?_, fun hh => absurd hh hnr⟩
        rw [e10, if_neg (by rw [i2]; simp)]; exact g2
      · refine ⟨by rw [e1, set_ne _ _ _ _ hkn]; exact g1, ?_, ?_⟩
        · rw [e10]; split
          · rw [set_ne _ _ _ _ hkn]; exact g2
          · exact g2
        · rw [e11, e12]; intro hh; exact g3 (by rw [hc]; simp [hh])
    · refine ⟨by rw [e1, set_self]; exact .inl hk1.1, ?_, fun hh => absurd hh hnr⟩
      rw [e10, if_pos hk1.1, set_self]
  · rw [e5, List.nodup_append]
    refine ⟨h.asgNd, by split <;> simp, ?_⟩
    intro a ha b hb e
    rw [mem_ite_singleton] at hb
    subst e
    exact (h.asgSt a ha).2 (hb.2 ▸ hin)
  · rw [e6, List.nodup_append]
    refine ⟨h.cmdsNd, by split <;> simp, ?_⟩
    intro a ha b hb e
    rw [mem_ite_singleton] at hb
    subst e
    exact (h.cmdsSt a ha).2 (hb.2 ▸ hin)
  · rw [e7, List.nodup_append]
    refine ⟨h.updsNd, by split <;> simp, ?_⟩
    intro a ha b hb e
    rw [mem_ite_singleton] at hb
    subst e
    obtain ⟨hb1, rfl⟩ := hb
    have := (hupdn ha).2
    rw [hb1.1] at this; cases this
  · rw [e8, List.nodup_append]
    refine ⟨h.retNd, by split <;> simp, ?_⟩
    intro a ha b hb e
    rw [mem_ite_singleton] at hb
    subst e
    exact (h.retSt a ha).2 (hb.2 ▸ hin)
  · rw [e9, List.nodup_append]
    refine ⟨h.abortsNd, by split <;> simp, ?_⟩
    intro a ha b hb e
    rw [mem_ite_singleton] at hb
    subst e
    exact (h.abortsSt a ha).2 (hb.2 ▸ hin)

/-! ## The end of a macro step -/

theorem assignExec_fields (s : St Val Env) (n) :
    (assignExec P s n).log = s.log ++ [.assign n (s.fixed n)] ∧ (assignExec P s n).fixed = s.fixed ∧
    (assignExec P s n).saved = s.saved ∧ (assignExec P s n).vars = set s.vars (P.node n).dest (s.fixed n) ∧
    (assignExec P s n).ret = s.ret ∧ (assignExec P s n).cmds = s.cmds ∧ (assignExec P s n).aborts = s.aborts ∧
    (assignExec P s n).upds = s.upds ∧ (assignExec P s n).st = s.st ∧ (assignExec P s n).asg = s.asg := by
  unfold assignExec; simp

theorem assignRetract_fields (s : St Val Env) (n) :
    (assignRetract P s n).log = s.log ++ [.retract n (s.saved (P.node n).dest)] ∧ (assignRetract P s n).fixed = s.fixed ∧
    (assignRetract P s n).saved = s.saved ∧ (assignRetract P s n).vars = set s.vars (P.node n).dest (s.saved (P.node n).dest) ∧
    (assignRetract P s n).ret = s.ret ∧ (assignRetract P s n).cmds = s.cmds ∧ (assignRetract P s n).aborts = s.aborts ∧
    (assignRetract P s n).upds = s.upds ∧ (assignRetract P s n).st = s.st ∧ (assignRetract P s n).asg = s.asg := by
  unfold assignRetract; simp

theorem assignAll_fields (l : List NodeId) (s : St Val Env) :
    (l.foldl (assignExec P) s).log = s.log ++ l.map (fun n => .assign n (s.fixed n)) ∧
    (l.foldl (assignExec P) s).fixed = s.fixed ∧ (l.foldl (assignExec P) s).saved = s.saved ∧
    (l.foldl (assignExec P) s).ret = s.ret ∧ (l.foldl (assignExec P) s).cmds = s.cmds ∧ (l.foldl (assignExec P) s).aborts = s.aborts ∧
    (l.foldl (assignExec P) s).upds = s.upds ∧ (l.foldl (assignExec P) s).st = s.st ∧
    (∀ v, (∀ n ∈ l, (P.node n).dest ≠ v) → (l.foldl (assignExec P) s).vars v = s.vars v) ∧
    ((l.map fun n => (P.node n).dest).Nodup → ∀ n ∈ l, (l.foldl (assignExec P) s).vars (P.node n).dest = s.fixed n) := by
  induction l generalizing s with
  | nil => simp
  | cons n l ih =>
    obtain ⟨g1, g2, g3, g4, g5, g6, g7, g8, g9, g10⟩ := assignExec_fields (P := P) s n
    obtain ⟨i1, i2, i3, i5, i6, i7, i8, i9, i10, i11⟩ := ih (assignExec P s n)
    simp only [List.foldl_cons]
    refine ⟨?_, i2.trans g2, i3.trans g3, i5.trans g5, i6.trans g6, i7.trans g7, i8.trans g8, i9.trans g9, ?_, ?_⟩
    · rw [i1, g1, g2]; simp
    · intro v hv
      rw [i10 v (fun k hk => hv k (by simp [hk])), g4, set_ne]
      intro e; exact hv n (by simp) e.symm
    · intro hnd k hk
      obtain ⟨hn1, hn2⟩ := List.nodup_cons.1 hnd
      rcases List.mem_cons.1 hk with rfl | hk
      · rw [i10 _ (fun k' hk' e => hn1 (List.mem_map.2 ⟨k', hk', e⟩)), g4, set_self]
      · rw [i11 hn2 k hk, g2]

theorem retractAll_fields (l : List NodeId) (s : St Val Env) :
    (l.foldl (assignRetract P) s).log = s.log ++ l.map (fun n => .retract n (s.saved (P.node n).dest)) ∧
    (l.foldl (assignRetract P) s).fixed = s.fixed ∧ (l.foldl (assignRetract P) s).saved = s.saved ∧
    (l.foldl (assignRetract P) s).cmds = s.cmds ∧ (l.foldl (assignRetract P) s).aborts = s.aborts ∧
    (l.foldl (assignRetract P) s).upds = s.upds ∧ (l.foldl (assignRetract P) s).st = s.st ∧
    (l.foldl (assignRetract P) s).asg = s.asg ∧
    (∀ v, (∀ n ∈ l, (P.node n).dest ≠ v) → (l.foldl (assignRetract P) s).vars v = s.vars v) ∧
    (∀ n ∈ l, (l.foldl (assignRetract P) s).vars (P.node n).dest = s.saved (P.node n).dest) := by
  induction l generalizing s with
  | nil => simp
  | cons n l ih =>
    obtain ⟨g1, g2, g3, g4, g5, g6, g7, g8, g9, g10⟩ := assignRetract_fields (P := P) s n
    obtain ⟨i1, i2, i3, i6, i7, i8, i9, i10, i11, i12⟩ := ih (assignRetract P s n)
    simp only [List.foldl_cons]
    refine ⟨?_, i2.trans g2, i3.trans g3, i6.trans g6, i7.trans g7, i8.trans g8, i9.trans g9, i10.trans g10, ?_, ?_⟩
    · rw [i1, g1, g3]; simp
    · intro v hv
      rw [i11 v (fun k hk => hv k (by simp [hk])), g4, set_ne]
      intro e; exact hv n (by simp) e.symm
    · intro k hk
      rcases List.mem_cons.1 hk with rfl | hk
      · by_cases hex : ∃ k' ∈ l, (P.node k').dest = (P.node k).dest
        · obtain ⟨k', hk', e⟩ := hex
          rw [← e, i12 k' hk', g3]
        · rw [i11 _ (fun k' hk' e => hex ⟨k', hk', e⟩), g4, set_self]
      · rw [i12 k hk, g3]

theorem mem_starts {t} {p : NodeId × Obs Val Env} {l : List (Event Val Env)} (h : p ∈ starts P t l) : (P.node p.1).type = t := by
  unfold starts at h
  obtain ⟨e, _, he⟩ := List.mem_filterMap.1 h
  cases e <;> simp at he
  obtain ⟨h1, rfl⟩ := he; exact h1

theorem mem_failings {t} {n : NodeId} {l : List (Event Val Env)} (h : n ∈ failings P t l) : (P.node n).type = t := by
  unfold failings at h
  obtain ⟨e, _, he⟩ := List.mem_filterMap.1 h
  cases e with
  | trans m a b o =>
    cases b with
    | failing => simp at he; obtain ⟨h1, rfl⟩ := he; exact h1
    | _ => cases he
  | _ => simp at he

theorem nodup_map_of_inj {α β : Type} (f : α → β) (l : List α) (h : l.Nodup) (hf : ∀ a ∈ l, ∀ b ∈ l, f a = f b → a = b) :
    (l.map f).Nodup := by
  induction l with
  | nil => simp
  | cons a l ih =>
    obtain ⟨h1, h2⟩ := List.nodup_cons.1 h
    rw [List.map_cons, List.nodup_cons]
    refine ⟨?_, ih h2 (fun x hx y hy => hf x (by simp [hx]) y (by simp [hy]))⟩
    intro hm
    obtain ⟨b, hb, e⟩ := List.mem_map.1 hm
    have := hf b (by simp [hb]) a (by simp) e
    subst this; exact h1 hb

/-- The permutation of nodes lifts to the started commands. -/
theorem perm_lift {α β : Type} (f : α → β) (l : List α) (a b : List β) (h : (a ++ b).Perm (l.map f)) :
    ∃ a' b' : List α, a = a'.map f ∧ b = b'.map f ∧ (a' ++ b').Perm l := by
  obtain ⟨c, hc1, hc2⟩ : ∃ c : List α, a ++ b = c.map f ∧ c.Perm l := by
    have : ∀ (x y : List β), x.Perm y → ∀ l : List α, y = l.map f → ∃ c : List α, x = c.map f ∧ c.Perm l := by
      intro x y hp
      induction hp with
      | nil => intro l hl; exact ⟨l, hl, List.Perm.refl _⟩
      | cons z _ ih =>
        intro l hl
        cases l with
        | nil => simp at hl
        | cons w l =>
          simp only [List.map_cons, List.cons.injEq] at hl
          obtain ⟨c, hc1, hc2⟩ := ih l hl.2
          exact ⟨w :: c, by simp [hl.1, hc1], hc2.cons w⟩
      | swap z w t =>
        intro l hl
        match l, hl with
        | z' :: w' :: l, hl =>
          simp only [List.map_cons, List.cons.injEq] at hl
          exact ⟨w' :: z' :: l, by simp [hl.1, hl.2.1, hl.2.2], List.Perm.swap _ _ _⟩
      | trans _ _ ih1 ih2 =>
        intro l hl
        obtain ⟨c, hc1, hc2⟩ := ih2 l hl
        obtain ⟨c', hc1', hc2'⟩ := ih1 c hc1
        exact ⟨c', hc1', hc2'.trans hc2⟩
    exact this _ _ h l rfl
  refine ⟨c.take a.length, c.drop a.length, ?_, ?_, ?_⟩
  · rw [List.map_take, ← hc1]; simp
  · rw [List.map_drop, ← hc1]; simp
  · rw [List.take_append_drop]; exact hc2

theorem OInv.finishStep {s : St Val Env} (hI : Inv P s) {before cur} (h : OInv P s cur) (hl : s.log = before ++ cur)
    (acc rej : List NodeId) (hp : (acc ++ rej).Perm s.cmds) :
    ∃ seg, MacroStep P before seg ∧ (finishStep P acc rej s).log = before ++ seg := by
  -- the three stages
  obtain ⟨a1, a2, a3, a4, a5, a6, a7, a8, a9, a10⟩ := assignAll_fields (P := P) s.asg s
  generalize hx : s.asg.foldl (Exec.assignExec P) s = x at *
  obtain ⟨b1, b2, b3, b5, b6, b7, b8, b9, b10, b11⟩ := retractAll_fields (P := P) x.ret { x with asg := [] }
  generalize hy : x.ret.foldl (Exec.assignRetract P) { x with asg := [] } = y at *
  simp only at b1 b2 b3 b5 b6 b7 b8 b9 b10 b11
  have hfin : Exec.finishStep P acc rej s =
      { outbound acc rej { y with ret := [] } with
        log := (outbound acc rej { y with ret := [] }).log ++ [.stepDone (outbound acc rej { y with ret := [] }).obs] } := by
    unfold Exec.finishStep performAssignments
    simp only [hx, hy]
  -- holders of variables
  have hAsg : ∀ n ∈ s.asg, (P.node n).type = .assignment ∧ s.holder (.var (P.node n).dest) = some n := by
    intro n hn
    have ht : (P.node n).type = .assignment := by
      have := hn; rw [h.asg] at this
      obtain ⟨p, hp, rfl⟩ := List.mem_map.1 this; exact mem_starts hp
    exact ⟨ht, hI.N.held n (.inl (.inl (h.asgSt n hn).1)) _ (var_mem_resources P ht)⟩
  have hRet : ∀ n ∈ s.ret, (P.node n).type = .assignment ∧ s.holder (.var (P.node n).dest) = some n := by
    intro n hn
    have ht : (P.node n).type = .assignment := by
      have := hn; rw [h.ret] at this; exact mem_failings this
    exact ⟨ht, hI.N.held n (.inl (.inr (.inr (h.retSt n hn).1))) _ (var_mem_resources P ht)⟩
  have hdest : (s.asg.map fun n => (P.node n).dest).Nodup := by
    refine nodup_map_of_inj _ _ h.asgNd ?_
    intro a ha b hb e
    have h1 := (hAsg a ha).2
    have h2 := (hAsg b hb).2
    rw [e, h2] at h1; simpa using h1.symm
  have hsep : ∀ n ∈ s.asg, ∀ k ∈ s.ret, (P.node k).dest ≠ (P.node n).dest := by
    intro n hn k hk e
    have h1 := (hAsg n hn).2
    have h2 := (hRet k hk).2
    rw [e, h1] at h2
    have : n = k := by simpa using h2
    subst this
    have h3 := (h.asgSt n hn).1
    rw [(h.retSt n hk).1] at h3; cases h3
  -- fixed values
  have hfix : ∀ t, HasBody t → ∀ p ∈ starts P t cur, Running (s.st p.1) → s.fixed p.1 = (P.node p.1).rhs p.2 := by
    intro t ht p hp hr
    obtain ⟨o, g1, g2, _⟩ := h.run p.1 hr
    rw [h.last t p ht hp] at g1
    cases g1
    exact g2 (by rw [mem_starts hp]; exact ht)
  have hrunA : ∀ p ∈ starts P .assignment cur, Running (s.st p.1) := fun p hp =>
    .inl (h.asgSt p.1 (by rw [h.asg]; exact List.mem_map.2 ⟨p, hp, rfl⟩)).1
  have hrunC : ∀ p ∈ starts P .command cur, Running (s.st p.1) := fun p hp =>
    .inl (h.cmdsSt p.1 (by rw [h.cmds]; exact List.mem_map.2 ⟨p, hp, rfl⟩)).1
  have hrunU : ∀ p ∈ starts P .update cur, Running (s.st p.1) := fun p hp => by
    rcases (h.updsSt p.1 (by rw [h.upds]; exact List.mem_map.2 ⟨p, hp, rfl⟩)).1 with g | g
    · exact .inl g
    · exact .inr (.inr g)
  rw [h.cmds] at hp
  obtain ⟨acc', rej', rfl, rfl, hp'⟩ := perm_lift _ _ _ _ hp
  have hyv : ∀ n ∈ s.asg, y.vars (P.node n).dest = s.fixed n := by
    intro n hn
    rw [b10 _ (by rw [a4]; exact hsep n hn)]
    exact a10 hdest n hn
  have hyr : ∀ n ∈ s.ret, y.vars (P.node n).dest = s.saved (P.node n).dest := by
    intro n hn
    rw [b11 n (by rw [a4]; exact hn), a3]
  have hc1 : (s.asg.map fun n => (Event.assign n (s.fixed n) : Event Val Env)) =
      (starts P .assignment cur).map (fun p => .assign p.1 ((P.node p.1).rhs p.2)) := by
    rw [h.asg, List.map_map]
    apply List.map_congr_left
    intro p hp
    simp only [Function.comp]
    rw [hfix _ (.inl rfl) p hp (hrunA p hp)]
  have hc2 : (x.ret.map fun n => (Event.retract n (x.saved (P.node n).dest) : Event Val Env)) =
      (failings P .assignment cur).map (fun n => .retract n (y.vars (P.node n).dest)) := by
    rw [a4, a3, h.ret]
    apply List.map_congr_left
    intro n hn
    rw [hyr n (by rw [h.ret]; exact hn)]
  have hc3 : ((acc'.map Prod.fst).map fun n => (Event.command n (y.fixed n) : Event Val Env)) =
      acc'.map (fun p => .command p.1 ((P.node p.1).rhs p.2)) := by
    rw [List.map_map]
    apply List.map_congr_left
    intro p hp
    have hp2 : p ∈ starts P .command cur := hp'.mem_iff.1 (List.mem_append_left _ hp)
    simp only [Function.comp]
    rw [b2, a2, hfix _ (.inr (.inl rfl)) p hp2 (hrunC p hp2)]
  have hc4 : (y.upds.map fun n => (Event.update n (y.fixed n) : Event Val Env)) =
      (starts P .update cur).map (fun p => .update p.1 ((P.node p.1).rhs p.2)) := by
    rw [b7, a7, h.upds, List.map_map]
    apply List.map_congr_left
    intro p hp
    simp only [Function.comp]
    rw [b2, a2, hfix _ (.inr (.inr rfl)) p hp (hrunU p hp)]
  refine ⟨_, ⟨cur, acc', rej', (outbound (acc'.map Prod.fst) (rej'.map Prod.fst) { y with ret := [] }).obs, rfl, h.moves, hp', ?_, ?_,
    ?_, ?_, ?_, ?_, ?_⟩, ?_⟩
  · rw [← h.asg]; exact h.asgNd
  · rw [← h.cmds]; exact h.cmdsNd
  · rw [← h.upds]; exact h.updsNd
  · rw [← h.ret]; exact h.retNd
  · rw [← h.aborts]; exact h.abortsNd
  · intro p hp
    show y.vars _ = _
    rw [hyv p.1 (by rw [h.asg]; exact List.mem_map.2 ⟨p, hp, rfl⟩), hfix _ (.inl rfl) p hp (hrunA p hp)]
  · intro n hn
    have hn' : n ∈ s.ret := by rw [h.ret]; exact hn
    obtain ⟨o, g1, _, g3⟩ := h.run n (.inr (.inr (h.retSt n hn').1))
    have hns : n ∉ (starts P .assignment cur).map Prod.fst := by
      intro hm
      rw [← h.asg] at hm
      have h3 := (h.asgSt n hm).1
      rw [(h.retSt n hn').1] at h3; cases h3
    refine ⟨hns, o, ?_, ?_⟩
    · rw [hl, lastStart_append, lastStart_absent n cur] at g1
      · exact g1
      · intro o' ho'
        apply hns
        refine List.mem_map.2 ⟨(n, o'), ?_, rfl⟩
        unfold starts
        exact List.mem_filterMap.2 ⟨_, ho', by simp [(hRet n hn').1]⟩
    show y.vars _ = _
    rw [hyr n hn', g3 (hRet n hn').1]
  · rw [hfin]
    simp only [outbound, b1, a1, hl, hc1, hc2, hc3, hc4, b6, a6, h.aborts, List.map_map]
    simp [St.obs, Function.comp_def]

theorem lastStart_noStart (n : NodeId) (l : List (Event Val Env)) (x) (hl : ∀ e ∈ l, ¬ IsMove e) : lastStart n l x = x := by
  induction l with
  | nil => rfl
  | cons e l ih =>
    have := hl e (by simp)
    cases e <;> first | exact (this trivial).elim | exact ih (fun e' h' => hl e' (by simp [h']))

theorem OInv.afterFinish {s : St Val Env} {cur} (h : OInv P s cur) (acc rej : List NodeId) : OInv P (Exec.finishStep P acc rej s) [] := by
  obtain ⟨a1, a2, a3, a4, a5, a6, a7, a8, a9, a10⟩ := assignAll_fields (P := P) s.asg s
  generalize hx : s.asg.foldl (Exec.assignExec P) s = x at *
  obtain ⟨b1, b2, b3, b5, b6, b7, b8, b9, b10, b11⟩ := retractAll_fields (P := P) x.ret { x with asg := [] }
  generalize hy : x.ret.foldl (Exec.assignRetract P) { x with asg := [] } = y at *
  simp only at b1 b2 b3 b5 b6 b7 b8 b9 b10 b11
  have hfin : Exec.finishStep P acc rej s =
      { outbound acc rej { y with ret := [] } with
        log := (outbound acc rej { y with ret := [] }).log ++ [.stepDone (outbound acc rej { y with ret := [] }).obs] } := by
    unfold Exec.finishStep performAssignments
    simp only [hx, hy]
  obtain ⟨l, hlog, hlm⟩ : ∃ l, (Exec.finishStep P acc rej s).log = s.log ++ l ∧ ∀ e ∈ l, ¬ IsMove e := by
    refine ⟨(s.asg.map fun n => .assign n (s.fixed n)) ++ (x.ret.map fun n => .retract n (x.saved (P.node n).dest)) ++
      (acc.map fun n => .command n (y.fixed n)) ++ rej.map .deny ++ y.aborts.map .abort ++
      (y.upds.map fun n => .update n (y.fixed n)) ++ [.stepDone (outbound acc rej { y with ret := [] }).obs], ?_, ?_⟩
    · rw [hfin]; simp [outbound, b1, a1]
    · intro e he
      simp only [List.mem_append, List.mem_map, List.mem_singleton] at he
      rcases he with (((((⟨_, _, rfl⟩ | ⟨_, _, rfl⟩) | ⟨_, _, rfl⟩) | ⟨_, _, rfl⟩) | ⟨_, _, rfl⟩) | ⟨_, _, rfl⟩) | rfl <;> exact id
  have hst : (Exec.finishStep P acc rej s).st = s.st := by rw [hfin]; show y.st = _; rw [b8, a8]
  have hfx : (Exec.finishStep P acc rej s).fixed = s.fixed := by rw [hfin]; show y.fixed = _; rw [b2, a2]
  have hsv : (Exec.finishStep P acc rej s).saved = s.saved := by rw [hfin]; show y.saved = _; rw [b3, a3]
  have h1 : (Exec.finishStep P acc rej s).asg = [] := by rw [hfin]; exact b9
  have h2 : (Exec.finishStep P acc rej s).ret = [] := by rw [hfin]; rfl
  have h3 : (Exec.finishStep P acc rej s).cmds = [] := by rw [hfin]; rfl
  have h4 : (Exec.finishStep P acc rej s).aborts = [] := by rw [hfin]; rfl
  have h5 : (Exec.finishStep P acc rej s).upds = [] := by rw [hfin]; rfl
  constructor
  · simp
  · rw [h1]; rfl
  · rw [h3]; rfl
  · rw [h5]; rfl
  · rw [h2]; rfl
  · rw [h4]; rfl
  · intro n hn
    rw [hst] at hn
    rw [hlog, lastStart_append, lastStart_noStart _ _ _ hlm, hfx, hsv]
    exact h.run n hn
  · intro t p _ hp; simp [starts] at hp
  · rw [h1]; simp
  · rw [h3]; simp
  · rw [h2]; simp
  · rw [h4]; simp
  · rw [h5]; simp
  · rw [h1]; simp
  · rw [h3]; simp
  · rw [h5]; simp
  · rw [h2]; simp
  · rw [h4]; simp

/-- The log of an execution consists of complete macro steps and the transitions of the current one. -/
theorem Reach.output {ph : Phase} {s : St Val Env} (h : Reach P ph s) :
    ∃ before cur, s.log = before ++ cur ∧ Macros P before ∧ OInv P s cur ∧ (ph = .idle → cur = []) ∧ (ph = .check → noOutput s) := by
  induction h with
  | init vars env =>
    refine ⟨[], [], rfl, .nil, ?_, fun _ => rfl, by simp⟩
    constructor <;> simp [Exec.init, starts, failings, Running]
  | @step ph ph' s s' hr hs ih =>
    obtain ⟨hI, hid, hchk⟩ := hr.inv
    obtain ⟨before, cur, hlog, hm, hO, hcur, hno⟩ := ih
    cases hs with
    | ext _ e ns =>
      refine ⟨before, cur, by rw [notifyAll_log]; exact hlog, hm, ?_, hcur, by simp⟩
      exact hO.congr (by simp) (by simp) (by simp) (by simp) (by simp) (by simp) (by simp) (by simp) (by simp) (by simp)
        (.inl ⟨by simp, by simp⟩)
    | ackUpd _ n =>
      have hu : s.upds = [] := by rw [hO.upds, hcur rfl]; rfl
      unfold ackUpdate
      split
      · refine ⟨before, cur, by rw [notifyAll_log]; exact hlog, hm, ?_, hcur, by simp⟩
        exact hO.congr (by simp) (by simp) (by simp) (by simp) (by simp) (by simp) (by simp) (by simp) (by simp) (by simp [hu])
          (.inl ⟨by simp, by simp⟩)
      · exact ⟨before, cur, hlog, hm, hO, hcur, by simp⟩
    | deletePlans _ =>
      refine ⟨before, cur, hlog, hm, ?_, hcur, by simp⟩
      exact hO.congr rfl rfl rfl rfl rfl rfl rfl rfl rfl (fun _ _ => rfl) (.inl ⟨rfl, rfl⟩)
    | begin _ =>
      have hc := hcur rfl
      have h1 : s.asg = [] := by rw [hO.asg, hc]; rfl
      have h2 : s.cmds = [] := by rw [hO.cmds, hc]; rfl
      have h3 : s.ret = [] := by rw [hO.ret, hc]; rfl
      have h4 : s.aborts = [] := by rw [hO.aborts, hc]; rfl
      refine ⟨before, cur, hlog, hm, ?_, by simp, fun _ => ⟨h1, h3, h2, h4⟩⟩
      exact hO.congr rfl rfl rfl rfl rfl rfl rfl rfl rfl (fun _ _ => rfl) (.inr ⟨h1, h2, h3, h4, fun _ _ => rfl⟩)
    | check _ n rest hc =>
      obtain ⟨e1, e2, e3, e4, e5, e6, e7, e8, e9, e10, e11, e12, e13, e14, e15, e16, e17⟩ := (checkOne_frame (P := P) n rest s).fields
      obtain ⟨g1, g2, g3, g4⟩ := hno rfl
      refine ⟨before, cur, by rw [e16]; exact hlog, hm, ?_, by simp, fun _ => ⟨by rw [e10]; exact g1, by rw [e11]; exact g2,
        by rw [e12]; exact g3, by rw [e13]; exact g4⟩⟩
      refine hO.congr e1 e10 e12 e14 e11 e13 e16 e6 e5 (fun _ _ => by rw [e7]) (.inr ⟨g1, g3, g2, g4, ?_⟩)
      intro n _; rw [e17, ← hchk rfl]; rfl
    | resolve _ hc hne =>
      obtain ⟨e1, e2, e3, e4, e5, e6, e7, e8, e9, e10, e11, e12, e13, e14, e15, e16, e17⟩ := (resolve_frame (P := P) s).fields
      obtain ⟨g1, g2, g3, g4⟩ := hno rfl
      refine ⟨before, cur, by rw [e16]; exact hlog, hm, ?_, by simp, by simp⟩
      refine hO.congr e1 e10 e12 e14 e11 e13 e16 e6 e5 (fun _ _ => by rw [e7]) (.inr ⟨g1, g3, g2, g4, ?_⟩)
      intro n _; rw [e17, ← hchk rfl]; rfl
    | trans _ n rest hc =>
      obtain ⟨ev, hO', hl'⟩ := hO.transOne hI hc
      exact ⟨before, cur ++ ev, by rw [hl', hlog]; simp, hm, hO', by simp, by simp⟩
    | again _ hc hn hne =>
      refine ⟨before, cur, hlog, hm, ?_, by simp, fun _ => hn⟩
      refine hO.congr rfl rfl rfl rfl rfl rfl rfl rfl rfl (fun _ _ => rfl) (.inr ⟨hn.1, hn.2.2.1, hn.2.1, hn.2.2.2, fun _ _ => rfl⟩)
    | finishQuiet _ acc rej hc hne hp =>
      obtain ⟨e1, e2, e3, e4, e5, e6, e7, e8, e9, e10, e11, e12, e13, e14, e15, e16, e17⟩ := (resolve_frame (P := P) s).fields
      obtain ⟨g1, g2, g3, g4⟩ := hno rfl
      have hO1 : OInv P (Exec.resolve P s) cur := by
        refine hO.congr e1 e10 e12 e14 e11 e13 e16 e6 e5 (fun _ _ => by rw [e7]) (.inr ⟨g1, g3, g2, g4, ?_⟩)
        intro n _; rw [e17, ← hchk rfl]; rfl
      have hI1 := (hI.resolve (hchk rfl)).1
      obtain ⟨seg, hs1, hs2⟩ := hO1.finishStep hI1 (by rw [e16]; exact hlog) acc rej (by rw [e12]; exact hp)
      exact ⟨before ++ seg, [], by rw [hs2]; simp, .snoc hm hs1, hO1.afterFinish acc rej, fun _ => rfl, by simp⟩
    | finish _ acc rej hc hne hp =>
      obtain ⟨seg, hs1, hs2⟩ := hO.finishStep hI hlog acc rej hp
      exact ⟨before ++ seg, [], by rw [hs2]; simp, .snoc hm hs1, hO.afterFinish acc rej, fun _ => rfl, by simp⟩

end Verif.Exec
