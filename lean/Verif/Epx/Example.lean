import Verif.Epx.Spec
import Verif.Exec.RunN
import Verif.Exec.ExitSpec
import Verif.Props.Sync
/-
Plans for examples: the nodes of a translated construct, each notified of everything.
-/
set_option autoImplicit false
namespace Verif.Epx
open Verif.Node Verif.Exec

/-- The plan with these nodes. (For examples. Nodes: `/repo/src/exec/NodeImpl.hh:824-850`.) -/
def planOf (b : Block Int Nat) : Plan Int Nat where
  node := fun k => match b.find? (fun x => x.1 == k) with
    | some x => x.2
    | none => { type := .empty, rhs := fun _ => 0 }
  wake := fun _ _ => b.map Prod.fst

theorem planOf_none {b : Block Int Nat} {k : NodeId} (h : k ∉ b.map Prod.fst) : (planOf b).node k = { type := .empty, rhs := fun _ => 0 } := by
  unfold planOf
  have : b.find? (fun x => x.1 == k) = none := by
    rw [List.find?_eq_none]
    intro x hx e
    exact h (List.mem_map.2 ⟨x, hx, by simpa using e⟩)
  simp only [this]

theorem planOf_const {b : Block Int Nat} (o1 o2 : Obs Int Nat) {k : NodeId} (h : k ∉ b.map Prod.fst) : conds (planOf b) o1 k = conds (planOf b) o2 k := by
  simp [conds, ancExit, ancInv, ancEnd, evalC, planOf_none h]

theorem planOf_same {b : Block Int Nat} {o1 o2 : Obs Int Nat} {k : NodeId} (hs : o2.st = o1.st) (hf : o2.fail = o1.fail)
    (h : decideNext (planOf b) o1 k ≠ decideNext (planOf b) o2 k) : k ∈ b.map Prod.fst := by
  refine Classical.byContradiction fun hk => h ?_
  unfold decideNext parentState; rw [planOf_const o1 o2 hk, hs, hf]

theorem planOf_notifies (b : Block Int Nat) : Notifies (planOf b) := by
  constructor
  · intro n o1 om o2 _ _ _ _ k _ hne
    left
    refine Classical.byContradiction fun hk => hne ?_
    unfold decideWith decideNext
    rw [planOf_const o1 o2 hk]
  · intro n o1 o2 hw k hne; exact planOf_same hw.st hw.fail hne
  · intro n o1 o2 hw k hne; exact planOf_same hw.st hw.fail hne
  · intro n o1 o2 hw _ k hne; exact planOf_same hw.st hw.fail hne

/-- A check that the nodes form a tree, with children numbered higher than their parents. (For examples; `NodeImpl.hh:824-850`.) -/
def treeCheck (b : Block Int Nat) (top : Nat) : Bool :=
  b.all fun x => x.2.children.all (fun c => decide (x.1 < c) && decide (c ≤ top) && b.any (fun y => y.1 == c) && ((planOf b).node c).anc == x.1 :: x.2.anc) &&
    (match x.2.anc with
     | [] => true
     | p :: l => ((planOf b).node p).children.contains x.1 && ((planOf b).node p).type == .list && l == ((planOf b).node p).anc) &&
    (((planOf b).node x.1).children == x.2.children && ((planOf b).node x.1).anc == x.2.anc)

theorem planOf_tree {b : Block Int Nat} {top : Nat} (h : treeCheck b top = true) : PlanTree (planOf b) := by
  unfold treeCheck at h
  rw [List.all_eq_true] at h
  have key : ∀ k, k ∈ b.map Prod.fst → ∃ x ∈ b, x.1 = k ∧ (((planOf b).node k).children = x.2.children ∧ ((planOf b).node k).anc = x.2.anc) := by
    intro k hk
    obtain ⟨x, hx, rfl⟩ := List.mem_map.1 hk
    have := h x hx
    simp only [Bool.and_eq_true, beq_iff_eq] at this
    exact ⟨x, hx, rfl, this.2⟩
  have child : ∀ p c, c ∈ ((planOf b).node p).children → p < c ∧ c ≤ top ∧ ((planOf b).node c).anc = p :: ((planOf b).node p).anc := by
    intro p c hc
    by_cases hp : p ∈ b.map Prod.fst
    · obtain ⟨x, hx, rfl, e1, e2⟩ := key p hp
      have := h x hx
      simp only [Bool.and_eq_true, beq_iff_eq, List.all_eq_true, decide_eq_true_eq] at this
      rw [e1] at hc
      have := this.1.1 c hc
      exact ⟨this.1.1.1, this.1.1.2, by rw [this.2, e2]⟩
    · rw [planOf_none hp] at hc; cases hc
  refine ⟨fun p c hc => (child p c hc).2.2, ?_, fun k => top - k, ?_⟩
  · intro p c l hc
    by_cases hk : c ∈ b.map Prod.fst
    · obtain ⟨x, hx, rfl, e1, e2⟩ := key c hk
      have := h x hx
      rw [e2] at hc
      rw [hc] at this
      simp only [Bool.and_eq_true, beq_iff_eq, List.all_eq_true, decide_eq_true_eq, List.contains_iff_mem] at this
      exact ⟨this.1.2.1.1, this.1.2.1.2, this.1.2.2⟩
    · rw [planOf_none hk] at hc; cases hc
  · intro p c hc
    obtain ⟨h1, h2, _⟩ := child p c hc
    show top - c < top - p
    have h1 : @LT.lt Nat _ p c := h1
    have h2 : @LE.le Nat _ c top := h2
    omega

theorem planOf_good (b : Block Int Nat) (s : St Int Nat) (e : Nat) (ns : List NodeId) (h : (ns == b.map Prod.fst) = true) :
    ∀ k, decideNext (planOf b) { s.obs with env := e } k ≠ decideNext (planOf b) s.obs k → k ∈ ns := by
  intro k hk
  have : ns = b.map Prod.fst := by simpa using h
  rw [this]
  exact planOf_same (o1 := { s.obs with env := e }) (o2 := s.obs) rfl rfl hk

theorem planOf_contains {b b' : Block Int Nat} (hn : (b.map Prod.fst).Nodup) (h : ∀ x ∈ b', x ∈ b) : Contains (planOf b) b' := by
  intro x hx
  have hx := h x hx
  have : b.find? (fun y => y.1 == x.1) = some x := by
    clear h
    induction b with
    | nil => cases hx
    | cons y l ih =>
      rw [List.find?_cons]
      by_cases e : y.1 = x.1
      · rcases List.mem_cons.1 hx with rfl | hx
        · simp
        · simp only [List.map_cons, List.nodup_cons] at hn
          exact absurd (List.mem_map.2 ⟨x, hx, e.symm⟩) hn.1
      · have : (y.1 == x.1) = false := by simpa using e
        rw [this]
        rcases List.mem_cons.1 hx with rfl | hx
        · exact absurd rfl e
        · exact ih (List.nodup_cons.1 hn).2 hx
  unfold planOf
  simp only [this]

/-! ## Finding an execution of a node in a history -/

variable {Val Env : Type}

/-- `p` starts, while no child is going on. (For examples; transitions reported by `PlexilExec.cc:370-374`.) -/
def startsAt (p : NodeId) (kids : List NodeId) : Event Val Env → Bool
  | .trans n a b o => n == p && a == .waiting && b == .executing && kids.all fun k => o.st k == .inactive || o.st k == .finished
  | _ => false

/-- The event is this transition. (For examples; transitions reported by `PlexilExec.cc:370-374`.) -/
def goesAt (m : NodeId) (a b : NState) : Event Val Env → Bool
  | .trans n c d _ => n == m && c == a && d == b
  | _ => false

/-- The event is not `p` becoming WAITING. (For examples; transitions reported by `PlexilExec.cc:370-374`.) -/
def notAgain (p : NodeId) : Event Val Env → Bool
  | .trans n _ d _ => !(n == p && d == .waiting)
  | _ => true

/-- Event `i` is the start of `p`, and `j` events later `m` goes from `a` to `b`. (For examples; transitions reported by `PlexilExec.cc:370-374`.) -/
def duringCheck (p : NodeId) (kids : List NodeId) (m : NodeId) (a b : NState) (i j : Nat) (log : List (Event Val Env)) : Bool :=
  match log.drop i with
  | [] => false
  | e :: rest => startsAt p kids e && (rest.take j).all (notAgain p) &&
    match rest.drop j with
    | [] => false
    | e' :: _ => goesAt m a b e'

theorem startsAt_spec {p : NodeId} {kids : List NodeId} {e : Event Val Env} (h : startsAt p kids e = true) :
    ∃ o, e = .trans p .waiting .executing o ∧ ∀ k ∈ kids, o.st k = .inactive ∨ o.st k = .finished := by
  unfold startsAt at h
  split at h
  · simp at h; obtain ⟨⟨⟨rfl, rfl⟩, rfl⟩, h⟩ := h; exact ⟨_, rfl, h⟩
  · cases h

theorem goesAt_spec {m : NodeId} {a b : NState} {e : Event Val Env} (h : goesAt m a b e = true) : ∃ o, e = .trans m a b o := by
  unfold goesAt at h
  split at h
  · simp at h; obtain ⟨⟨rfl, rfl⟩, rfl⟩ := h; exact ⟨_, rfl⟩
  · cases h

theorem duringCheck_spec {p : NodeId} {kids : List NodeId} {m : NodeId} {a b : NState} {i j : Nat} {log : List (Event Val Env)}
    (h : duringCheck p kids m a b i j log = true) : ∃ o, During p kids log ((log.drop (i + 1)).take j) m a b o := by
  unfold duringCheck at h
  split at h
  · cases h
  · rename_i e rest he
    simp only [Bool.and_eq_true] at h
    obtain ⟨⟨h1, h2⟩, h3⟩ := h
    split at h3
    · cases h3
    · rename_i e' rest' he'
      obtain ⟨o1, rfl, g1⟩ := startsAt_spec h1
      obtain ⟨o, rfl⟩ := goesAt_spec h3
      have hr : log.drop (i + 1) = rest := by rw [← List.tail_drop, he]; rfl
      refine ⟨o, log.take i, o1, rest', ?_, g1, ?_⟩
      · rw [hr, ← he', List.take_append_drop, ← he, List.take_append_drop]
      · intro a' o' hx
        rw [hr] at hx
        have := List.all_eq_true.1 h2 _ hx
        simp [notAgain] at this

/-- Event `i` is the start of `p`, which has not become WAITING since. (For examples; transitions reported by `PlexilExec.cc:370-374`.) -/
def ongoingCheck (p : NodeId) (kids : List NodeId) (i : Nat) (log : List (Event Val Env)) : Bool :=
  match log.drop i with
  | [] => false
  | e :: rest => startsAt p kids e && rest.all (notAgain p)

theorem ongoingCheck_spec {p : NodeId} {kids : List NodeId} {i : Nat} {log : List (Event Val Env)}
    (h : ongoingCheck p kids i log = true) : Ongoing p kids log (log.drop (i + 1)) := by
  unfold ongoingCheck at h
  split at h
  · cases h
  · rename_i e rest he
    simp only [Bool.and_eq_true] at h
    obtain ⟨o1, rfl, h1⟩ := startsAt_spec h.1
    have hr : log.drop (i + 1) = rest := by rw [← List.tail_drop, he]; rfl
    refine ⟨log.take i, o1, ?_, h1, ?_⟩
    · rw [hr, ← he, List.take_append_drop]
    · intro a' o' hx
      rw [hr] at hx
      have := List.all_eq_true.1 h.2 _ hx
      simp [notAgain] at this

/-- The history reports that the node started. (For examples; transitions reported by `PlexilExec.cc:370-374`.) -/
def startedCheck (n : NodeId) (L : List (Event Val Env)) : Bool := L.any fun e => goesAt n .waiting .executing e || goesAt n .waiting .iterationEnded e

theorem startedCheck_iff {n : NodeId} {L : List (Event Val Env)} : startedCheck n L = true ↔ Started n L := by
  unfold startedCheck Started
  rw [List.any_eq_true]
  constructor
  · rintro ⟨e, h1, h2⟩
    rw [Bool.or_eq_true] at h2
    rcases h2 with h2 | h2
    · obtain ⟨o, rfl⟩ := goesAt_spec h2; exact ⟨_, o, h1, .inl rfl⟩
    · obtain ⟨o, rfl⟩ := goesAt_spec h2; exact ⟨_, o, h1, .inr rfl⟩
  · rintro ⟨y, o, h1, rfl | rfl⟩ <;> exact ⟨_, h1, by simp [goesAt]⟩

theorem goes_mem {m : NodeId} {a b : NState} {L : List (Event Val Env)} (h : L.any (goesAt m a b) = true) : ∃ o, .trans m a b o ∈ L := by
  obtain ⟨e, h1, h2⟩ := List.any_eq_true.1 h
  obtain ⟨o, rfl⟩ := goesAt_spec h2
  exact ⟨o, h1⟩

/-- An Empty node without conditions. (For examples; `NodeImpl.hh:824-850`.) -/
def plain (anc : List NodeId) : NodeDef Int Nat := { type := .empty, anc := anc, rhs := fun _ => 0 }

theorem no_told {P : Plan Val Env} {n : NodeId} (h : ∀ a ∈ (P.node n).anc, (P.node a).exit = none ∧ (P.node a).inv = none ∧ (P.node a).endc = none) (o : Obs Val Env) :
    ¬ Verif.Props.Sync.ToldToStop P o n := by
  rintro ⟨a, ha, h1⟩
  obtain ⟨e1, e2, e3⟩ := h a ha
  rw [e1, e2, e3] at h1
  rcases h1 with ⟨_, h1, _⟩ | ⟨_, h1, _⟩ | ⟨_, h1, _⟩ <;> cases h1

end Verif.Epx
