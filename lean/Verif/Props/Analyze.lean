import Verif.Analyze.Model
/-
C136: the statistics of a plan are right.
-/
set_option autoImplicit false
namespace Verif.Analyze

mutual
/-- All nodes of a plan. -/
def PNode.all : PNode → List PNode
  | .mk t i v c ks => .mk t i v c ks :: allOf ks
/-- All nodes of some plans. -/
def allOf : List PNode → List PNode
  | [] => []
  | k :: ks => k.all ++ allOf ks
end

mutual
/-- The greatest number of library calls one inside the other. -/
def PNode.deep : PNode → Nat
  | .mk t _ _ _ ks => (if t = .call then 1 else 0) + deepOf ks
/-- The greatest of these. -/
def deepOf : List PNode → Nat
  | [] => 0
  | k :: ks => max k.deep (deepOf ks)
end

/-- Plans the parser makes: a library call has one child; only nodes with children have ancestor conditions of a child, and only nodes without have an abort-complete condition (`AssignmentNode.cc:103`, `CommandNode.cc:170`);
the map of variables, if there is one, is not empty. -/
def PNode.Ok (p : PNode) : Prop := (p.type = .call → ∃ k, p.kids = [k]) ∧ (0 ∉ p.conds ∨ 12 ∉ p.conds) ∧ p.vars ≠ some 0

/-- Is a call of that library. -/
def isCall (n : String) (p : PNode) : Bool := decide (p.type = .call) && match p.kids with
  | k :: _ => decide (k.id = n)
  | [] => false

/-- How often a name was counted. -/
def called (l : List (String × Nat)) (n : String) : Nat := (l.lookup n).getD 0

/-- The statistics `s'` are those of `s` and of the nodes `l`. -/
structure Adds (s s' : Stats) (l : List PNode) : Prop where
  nodes : s'.nodes = s.nodes + l.length
  types : ∀ t, s'.types t = s.types t + l.countP fun p => decide (p.type = t)
  kids : ∀ n, s'.kids.getD n 0 = s.kids.getD n 0 + l.countP fun p => decide (p.kids.length = n)
  vars : ∀ n, s'.vars.getD n 0 = s.vars.getD n 0 + l.countP fun p => decide (p.vars = some n)
  conds : ∀ i, s'.conds i = s.conds i + l.countP fun p => decide (i ∈ p.has)
  condNodes : ∀ n, s'.condNodes.getD n 0 = s.condNodes.getD n 0 + l.countP fun p => decide (p.has.length = n)
  condLists : ∀ n, s'.condLists.getD n 0 = s.condLists.getD n 0 + l.countP fun p => decide (p.type = .list) && decide (p.has.length = n)
  libs : ∀ n, called s'.libs n = called s.libs n + l.countP (isCall n)
  keys : (s.libs.map Prod.fst).Nodup → (s'.libs.map Prod.fst).Nodup
  pos : (∀ x ∈ s.libs, 0 < x.2) → ∀ x ∈ s'.libs, 0 < x.2
  depth : s'.depth = s.depth
  kidsNil : s'.kids ≠ []
  len1 : s'.condNodes.length = s.condNodes.length
  len2 : s'.condLists.length = s.condLists.length

theorem inc_spec {v : List Nat} {i : Nat} (h : i < v.length) : ∃ v', inc v i = some v' ∧ v'.length = v.length ∧ ∀ n, v'.getD n 0 = v.getD n 0 + if i = n then 1 else 0 := by
  refine ⟨_, if_pos h, by simp, fun n => ?_⟩
  by_cases e : i = n
  · subst e; simp [List.getD, h]
  · simp [List.getD, e]

theorem resize_getD (v : List Nat) (m n : Nat) : (resize v m).getD n 0 = v.getD n 0 := by
  unfold resize
  simp only [List.getD, List.getElem?_append]
  split
  · rfl
  · next h =>
    rw [List.getElem?_eq_none (Nat.le_of_not_lt h)]
    by_cases h2 : n - v.length < m - v.length
    · simp [List.getElem?_replicate, h2]
    · simp [List.getElem?_replicate, h2]

theorem count_spec {v : List Nat} {n : Nat} (h : v ≠ [] ∨ 0 < n) : ∃ v', count v n = some v' ∧ v' ≠ [] ∧ ∀ m, v'.getD m 0 = v.getD m 0 + if n = m then 1 else 0 := by
  unfold count
  split
  · next hn =>
    have hlt : n < (resize v (n * 2)).length := by
      simp only [resize, List.length_append, List.length_replicate]
      rcases h with h | h
      · have := List.length_pos_iff.2 h; omega
      · omega
    obtain ⟨v', h1, h2, h3⟩ := inc_spec hlt
    refine ⟨v', h1, ?_, fun m => by rw [h3, resize_getD]⟩
    rintro rfl
    simp at h2
    omega
  · next hn =>
    obtain ⟨v', h1, h2, h3⟩ := inc_spec (Nat.lt_of_not_le hn)
    refine ⟨v', h1, ?_, h3⟩
    rintro rfl
    simp at h2
    omega

theorem has_lt {p : PNode} (h : 0 ∉ p.conds ∨ 12 ∉ p.conds) : p.has.length < 13 := by
  unfold PNode.has
  refine Nat.lt_of_le_of_ne (Nat.le_trans (List.length_filter_le _ _) (by simp)) fun he => ?_
  have : (List.filter (fun i => decide (i ∈ p.conds)) (List.range 13)) = List.range 13 := (List.filter_sublist).eq_of_length (by rw [he]; rfl)
  have hall := List.filter_eq_self.1 this
  rcases h with h | h
  · exact h (by simpa using hall 0 (by simp))
  · exact h (by simpa using hall 12 (by simp))

theorem countLib_called (l : List (String × Nat)) (n m : String) : called (countLib l n) m = called l m + if n = m then 1 else 0 := by
  induction l with
  | nil =>
    simp only [countLib, called, List.lookup]
    by_cases h : n = m
    · subst h; simp
    · have : (m == n) = false := by simp; exact fun e => h e.symm
      simp [this, h]
  | cons a l ih =>
    obtain ⟨k, c⟩ := a
    rw [countLib]
    split
    · next e =>
      subst e
      simp only [called, List.lookup]
      by_cases h : k = m
      · subst h; simp
      · have : (m == k) = false := by simp; exact fun e => h e.symm
        simp [this, h]
    · next e =>
      simp only [called, List.lookup] at ih ⊢
      by_cases h : k = m
      · subst h
        have : n ≠ k := fun e' => e e'.symm
        simp [this]
      · have : (m == k) = false := by simp; exact fun e => h e.symm
        simp only [this]
        exact ih

theorem countLib_keys (l : List (String × Nat)) (n : String) : ∀ k, k ∈ (countLib l n).map Prod.fst ↔ k ∈ l.map Prod.fst ∨ k = n := by
  induction l with
  | nil => simp [countLib]
  | cons a l ih =>
    obtain ⟨m, c⟩ := a
    intro k
    rw [countLib]
    split
    · next e => subst e; simp only [List.map_cons, List.mem_cons]; constructor
                · rintro (h | h)
                  · exact .inl (.inl h)
                  · exact .inl (.inr h)
                · rintro ((h | h) | h)
                  · exact .inl h
                  · exact .inr h
                  · exact .inl h
    · simp only [List.map_cons, List.mem_cons, ih]; constructor
      · rintro (h | h | h) <;> simp [h]
      · rintro ((h | h) | h) <;> simp [h]

theorem countLib_nodup (l : List (String × Nat)) (n : String) (h : (l.map Prod.fst).Nodup) : ((countLib l n).map Prod.fst).Nodup := by
  induction l with
  | nil => simp [countLib]
  | cons a l ih =>
    obtain ⟨m, c⟩ := a
    rw [List.map_cons, List.nodup_cons] at h
    rw [countLib]
    split
    · rw [List.map_cons, List.nodup_cons]; exact h
    · next e =>
      rw [List.map_cons, List.nodup_cons]
      refine ⟨fun hm => ?_, ih h.2⟩
      rcases (countLib_keys l n m).1 hm with h1 | h1
      · exact h.1 h1
      · exact e h1

theorem countLib_pos (l : List (String × Nat)) (n : String) (h : ∀ x ∈ l, 0 < x.2) : ∀ x ∈ countLib l n, 0 < x.2 := by
  induction l with
  | nil => simp [countLib]
  | cons a l ih =>
    obtain ⟨m, c⟩ := a
    intro x hx
    rw [countLib] at hx
    split at hx
    · rcases List.mem_cons.1 hx with rfl | hx
      · simp
      · exact h x (by simp [hx])
    · rcases List.mem_cons.1 hx with rfl | hx
      · exact h (m, c) (by simp)
      · exact ih (fun x hx => h x (by simp [hx])) x hx

/-- One node: its numbers, but not that it is a call. -/
theorem here_spec {p : PNode} {s : Stats} (hp : p.Ok) (hk : s.kids ≠ [] ∨ p.kids ≠ []) (h1 : s.condNodes.length = 13) (h2 : s.condLists.length = 13) : ∃ s', here p s = some s' ∧
    s'.libs = s.libs ∧ s'.maxDepth = s.maxDepth ∧ (∀ libs, (∀ n, called libs n = called s.libs n + [p].countP (isCall n)) → ((s.libs.map Prod.fst).Nodup → (libs.map Prod.fst).Nodup) →
      ((∀ x ∈ s.libs, 0 < x.2) → ∀ x ∈ libs, 0 < x.2) → ∀ d, Adds s { s' with libs := libs, depth := s.depth, maxDepth := d } [p]) ∧ s'.depth = s.depth := by
  obtain ⟨_, hc, hv⟩ := hp
  have hlt := has_lt hc
  unfold here
  have vs : ∀ s : Stats, ∃ v, variables p s = some { s with vars := v } ∧ ∀ n, v.getD n 0 = s.vars.getD n 0 + if p.vars = some n then 1 else 0 := by
    intro s
    unfold variables
    cases hvar : p.vars with
    | none => exact ⟨s.vars, rfl, by simp⟩
    | some n =>
      have hn : 0 < n := Nat.pos_of_ne_zero fun e => hv (by rw [hvar, e])
      obtain ⟨v', g1, _, g3⟩ := count_spec (v := s.vars) (n := n) (.inr hn)
      refine ⟨v', by simp only [g1], fun m => by rw [g3]; simp⟩
  obtain ⟨v, e1, e2⟩ := vs { s with nodes := s.nodes + 1, types := fun t => s.types t + (if t = p.type then 1 else 0) }
  rw [e1]
  simp only
  obtain ⟨cn, c1, c2, c3⟩ := inc_spec (v := s.condNodes) (i := p.has.length) (by omega)
  obtain ⟨kn, k1, k2, k3⟩ := count_spec (v := s.kids) (n := p.kids.length) (hk.imp id (fun h => List.length_pos_iff.2 h))
  by_cases ht : p.type = .list
  · obtain ⟨cl, l1, l2, l3⟩ := inc_spec (v := s.condLists) (i := p.has.length) (by omega)
    simp only [conditions, c1, if_pos ht, l1, k1]
    refine ⟨_, rfl, rfl, rfl, fun libs hl hn hps d => ?_, rfl⟩
    constructor <;> first | exact hl | exact hn | exact hps | exact k2 | exact c2 | exact l2 | skip
    · rfl
    · intro t; simp [List.countP_cons, eq_comm]
    · intro n; simp only [k3, List.countP_cons, List.countP_nil]; simp
    · intro n; simp only [e2, List.countP_cons, List.countP_nil]; simp
    · intro n; simp [List.countP_cons]
    · intro n; simp only [c3, List.countP_cons, List.countP_nil]; simp
    · intro n; simp only [l3, List.countP_cons, List.countP_nil]; simp [ht]
    · rfl
  · simp only [conditions, c1, if_neg ht, k1]
    refine ⟨_, rfl, rfl, rfl, fun libs hl hn hps d => ?_, rfl⟩
    constructor <;> first | exact hl | exact hn | exact hps | exact k2 | exact c2 | rfl | skip
    · intro t; simp [List.countP_cons, eq_comm]
    · intro n; simp only [k3, List.countP_cons, List.countP_nil]; simp
    · intro n; simp only [e2, List.countP_cons, List.countP_nil]; simp
    · intro n; simp [List.countP_cons]
    · intro n; simp only [c3, List.countP_cons, List.countP_nil]; simp
    · intro n; simp [List.countP_cons, ht]

theorem Adds.trans {s s' s'' : Stats} {l l' : List PNode} (h : Adds s s' l) (h' : Adds s' s'' l') : Adds s s'' (l ++ l') := by
  constructor
  · rw [h'.nodes, h.nodes, List.length_append]; omega
  · intro t; rw [h'.types, h.types, List.countP_append]; omega
  · intro t; rw [h'.kids, h.kids, List.countP_append]; omega
  · intro t; rw [h'.vars, h.vars, List.countP_append]; omega
  · intro t; rw [h'.conds, h.conds, List.countP_append]; omega
  · intro t; rw [h'.condNodes, h.condNodes, List.countP_append]; omega
  · intro t; rw [h'.condLists, h.condLists, List.countP_append]; omega
  · intro t; rw [h'.libs, h.libs, List.countP_append]; omega
  · exact fun k => h'.keys (h.keys k)
  · exact fun k => h'.pos (h.pos k)
  · rw [h'.depth, h.depth]
  · exact h'.kidsNil
  · rw [h'.len1, h.len1]
  · rw [h'.len2, h.len2]

mutual
theorem gather_spec : ∀ (p : PNode) (s : Stats), (∀ q ∈ p.all, q.Ok) → s.kids ≠ [] ∨ p.kids ≠ [] → s.condNodes.length = 13 → s.condLists.length = 13 → s.depth ≤ s.maxDepth →
    ∃ s', gather p s = some s' ∧ Adds s s' p.all ∧ s'.maxDepth = max s.maxDepth (s.depth + p.deep)
  | .mk t i v c ks, s => by
    intro hok hk h1 h2 hd
    rw [PNode.all] at hok ⊢
    have hp := hok (.mk t i v c ks) (by simp)
    obtain ⟨s1, g1, g2, g3, g4, g5⟩ := here_spec hp hk h1 h2
    rw [gather, g1, PNode.deep]
    simp only
    by_cases ht : t = .call
    · subst ht
      obtain ⟨k, hkid⟩ := hp.1 rfl
      have hkid : ks = [k] := hkid
      subst hkid
      simp only
      have A := g4 (countLib s.libs k.id) (fun n => by rw [countLib_called]; simp [isCall, PNode.type, PNode.kids]) (countLib_nodup _ _) (countLib_pos _ _)
        (if s.depth + 1 > s.maxDepth then s.depth + 1 else s.maxDepth)
      rw [g2, g3, g5]
      obtain ⟨s2, e1, e2, e3⟩ := gather_spec k { s1 with libs := countLib s.libs k.id, depth := s.depth + 1, maxDepth := if s.depth + 1 > s.maxDepth then s.depth + 1 else s.maxDepth }
        (fun q hq => hok q (by simp only [allOf, List.mem_cons, List.mem_append]; exact .inr (.inl hq))) (.inl A.kidsNil) (A.len1.trans h1) (A.len2.trans h2) (by dsimp only; split <;> omega)
      rw [e1]
      refine ⟨_, rfl, ?_, ?_⟩
      · have B : Adds { s1 with libs := countLib s.libs k.id, depth := s.depth, maxDepth := if s.depth + 1 > s.maxDepth then s.depth + 1 else s.maxDepth } { s2 with depth := s2.depth - 1 } k.all := by
          constructor
          · exact e2.nodes
          · exact e2.types
          · exact e2.kids
          · exact e2.vars
          · exact e2.conds
          · exact e2.condNodes
          · exact e2.condLists
          · exact e2.libs
          · exact e2.keys
          · exact e2.pos
          · have := e2.depth
            simp only at this ⊢
            omega
          · exact e2.kidsNil
          · exact e2.len1
          · exact e2.len2
        have := A.trans B
        simpa [allOf] using this
      · simp only [e3, deepOf, if_true]
        split <;> omega
    · have A := g4 s.libs (fun n => by simp [isCall, PNode.type, ht]) id id s.maxDepth
      have hs1 : { s1 with libs := s.libs, depth := s.depth, maxDepth := s.maxDepth } = s1 := by rw [← g2, ← g3, ← g5]
      rw [hs1] at A
      obtain ⟨s2, e1, e2, e3⟩ := gatherAll_spec ks s1 (fun q hq => hok q (by simp [hq])) A.kidsNil (A.len1.trans h1) (A.len2.trans h2) (by rw [g5, g3]; exact hd)
      refine ⟨s2, ?_, A.trans e2, ?_⟩
      · cases t <;> first | exact e1 | exact absurd rfl ht
      · rw [e3, g3, g5, if_neg ht, Nat.zero_add]
theorem gatherAll_spec : ∀ (ks : List PNode) (s : Stats), (∀ q ∈ allOf ks, q.Ok) → s.kids ≠ [] → s.condNodes.length = 13 → s.condLists.length = 13 → s.depth ≤ s.maxDepth →
    ∃ s', gatherAll ks s = some s' ∧ Adds s s' (allOf ks) ∧ s'.maxDepth = max s.maxDepth (s.depth + deepOf ks)
  | [], s => by
    intro _ hk _ _ hd
    refine ⟨s, rfl, ?_, by simp only [deepOf]; omega⟩
    constructor <;> simp [allOf, hk]
  | k :: ks, s => by
    intro hok hk h1 h2 hd
    rw [allOf] at hok ⊢
    obtain ⟨s1, e1, e2, e3⟩ := gather_spec k s (fun q hq => hok q (by simp [hq])) (.inl hk) h1 h2 hd
    obtain ⟨s2, f1, f2, f3⟩ := gatherAll_spec ks s1 (fun q hq => hok q (by simp [hq])) e2.kidsNil (e2.len1.trans h1) (e2.len2.trans h2) (by rw [e2.depth, e3]; omega)
    refine ⟨s2, ?_, e2.trans f2, ?_⟩
    · rw [gatherAll, e1]; exact f1
    · rw [f3, e3, e2.depth, deepOf]; omega
end

/-- The statistics `s` are those of the nodes `l`: each number is the number of nodes it says. -/
structure Right (s : Stats) (l : List PNode) (deep : Nat) : Prop where
  nodes : s.nodes = l.length
  types : ∀ t, s.types t = l.countP fun p => decide (p.type = t)
  kids : ∀ n, s.kids.getD n 0 = l.countP fun p => decide (p.kids.length = n)
  vars : ∀ n, s.vars.getD n 0 = l.countP fun p => decide (p.vars = some n)
  conds : ∀ i < 13, s.conds i = l.countP fun p => decide (i ∈ p.conds)
  condNodes : ∀ n, s.condNodes.getD n 0 = l.countP fun p => decide (p.has.length = n)
  condLists : ∀ n, s.condLists.getD n 0 = l.countP fun p => decide (p.type = .list) && decide (p.has.length = n)
  libs : ∀ n, (s.libs.lookup n).getD 0 = l.countP (isCall n)
  libNames : (s.libs.map Prod.fst).Nodup ∧ ∀ x ∈ s.libs, 0 < x.2
  depth : s.maxDepth = deep

/-- **C136 (partial).** The statistics of a plan whose root has children are right: every number is the number of nodes of the plan it says. -/
theorem c136_right_partial (p : PNode) (hok : ∀ q ∈ p.all, q.Ok) (hk : p.kids ≠ []) : ∃ s, analyze p = some s ∧ Right s p.all p.deep := by
  obtain ⟨s, h1, h2, h3⟩ := gather_spec p .init hok (.inr hk) (by rfl) (by rfl) (Nat.le_refl _)
  refine ⟨s, h1, ?_⟩
  have z : ∀ n, (List.replicate 13 0 : List Nat).getD n 0 = 0 := by
    intro n
    simp only [List.getD, List.getElem?_replicate]
    split <;> rfl
  constructor
  · rw [h2.nodes]; exact Nat.zero_add _
  · intro t; rw [h2.types]; exact Nat.zero_add _
  · intro t; rw [h2.kids]; exact Nat.zero_add _
  · intro t; rw [h2.vars]; exact Nat.zero_add _
  · intro i hi
    rw [h2.conds]
    simp only [Stats.init, Nat.zero_add]
    congr 1
    funext q
    simp [PNode.has, hi]
  · intro n; rw [h2.condNodes, Stats.init, z, Nat.zero_add]
  · intro n; rw [h2.condLists, Stats.init, z, Nat.zero_add]
  · intro n; have := h2.libs n; simp only [called] at this; rw [this]; exact Nat.zero_add _
  · exact ⟨h2.keys (by simp [Stats.init]), h2.pos (by simp [Stats.init])⟩
  · rw [h3]; simp [Stats.init]

/-- **C136 is false of a plan that is a single node without children**: the vector of numbers of children, emptied before (`analyzePlan.cc:108`), is "grown" to no elements (82), and then its element 0 is incremented (83), which does
not exist. -/
theorem c136_leaf_refuted (t : NType) (i : String) (v : Option Nat) (c : List Nat) : analyze (.mk t i v c []) = none := by
  have h : here (.mk t i v c []) .init = none := by
    unfold here
    split
    · rfl
    · next s hs =>
      have hk : s.kids = [] := by
        unfold variables at hs
        split at hs
        · cases hs; rfl
        · split at hs
          · cases hs
          · cases hs; rfl
      cases hc : conditions (.mk t i v c []) s with
      | none => rfl
      | some s2 =>
        have hk2 : s2.kids = [] := by
          unfold conditions at hc
          split at hc
          · cases hc
          · dsimp only at hc
            split at hc
            · split at hc
              · cases hc
              · cases hc; exact hk
            · cases hc; exact hk
        simp only [hk2, PNode.kids]
        rfl
  rw [analyze, gather, h]

/-- A plan with a library called twice, for which the hypotheses hold. -/
def exPlan : PNode := .mk .list "Root" (some 2) [3, 11] [.mk .call "c1" none [] [.mk .command "L" (some 1) [11, 12] []], .mk .call "c2" none [4] [.mk .command "L" (some 1) [11, 12] []], .mk .empty "E" none [] []]

example : (∀ q ∈ exPlan.all, q.Ok) ∧ exPlan.kids ≠ [] ∧ (analyze exPlan).map (fun s => (s.nodes, s.kids, s.libs, s.maxDepth)) = some (6, [3, 2, 0, 1, 0, 0], [("L", 2)], 1) := by
  refine ⟨?_, by simp [exPlan, PNode.kids], by decide⟩
  intro q hq
  simp only [exPlan, PNode.all, allOf, List.mem_cons, List.mem_append, List.not_mem_nil, or_false, List.append_nil] at hq
  rcases hq with rfl | (rfl | rfl) | (rfl | rfl) | rfl <;> refine ⟨?_, ?_, ?_⟩ <;> simp [PNode.type, PNode.kids, PNode.conds, PNode.vars]

end Verif.Analyze
