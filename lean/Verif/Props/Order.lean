import Verif.Exec.Order
import Verif.Exec.Run
/-
C13 for the executive: how waiting nodes are kept and served. (The pointer-level queue is in `Props/Queue.lean`.)
-/
set_option maxRecDepth 100000
namespace Verif.Props.Order
open Verif.Node Verif.Exec

variable {Val Env : Type} {P : Plan Val Env}

/-- C13: at every moment the waiting nodes are ordered by priority, and every step of the executive either removes nodes without changing the
order of the others, or inserts one node behind all those that are at least as urgent (so behind those of equal priority that came
before) and in front of all less urgent ones. -/
theorem C13_waiting_order {ph ph' : Phase} {s s' : St Val Env} (h : Reach P ph s) (hs : Step P (ph, s) (ph', s')) :
    Sorted P s.pending ∧ QueueMove P s.pending s'.pending := ⟨h.sorted, h.queueMove hs h.sorted⟩

/-- C13: when resources are given out, a node `n` gets a resource `r` ahead of a node `m` that waits in front of it, has been told to try, and
also needs `r`, only if `m` cannot run anyway: `m` names a resource twice, or one of its resources was held before, or
was given in this very step to a node in front of `m`. -/
theorem C13_served_in_order {ph : Phase} {s : St Val Env} (h : Reach P ph s) {l1 l2 l3 : List NodeId} {m n : NodeId} {r : Res}
    (hp : s.pending = l1 ++ m :: l2 ++ n :: l3) (hq : s.q m = .pendingTry ∨ s.q m = .pendingTryCheck) (hr : r ∈ resources P m)
    (hnot : s.holder r ≠ some n) (hgot : (resolve P s).holder r = some n) :
    ¬ (resources P m).Nodup ∨
    ∃ r' ∈ resources P m, (∃ k, s.holder r' = some k) ∨ ∃ k ∈ l1, s.holder r' ≠ some k ∧ (resolve P s).holder r' = some k := by
  have hnd := h.inv.1.Q.pendingNodup
  obtain ⟨tried, t1, t2, t3⟩ := resolveFrom_Tries (P := P) s.pending s hnd
  have hn : n ∈ tried := by
    rcases t2.gain hgot with g | g
    · exact absurd g hnot
    · exact g
  have hpm : s.pending = l1 ++ m :: (l2 ++ n :: l3) := by rw [hp]; simp
  have hm : m ∈ tried := by
    rcases t3 l1 m (l2 ++ n :: l3) hpm (by rcases hq with g | g <;> rw [g] <;> trivial) with g | g
    · exact g
    · exact absurd hn (g n (by simp))
  have hmn : m ≠ n := by
    intro e
    rw [hpm] at hnd
    exact (List.nodup_cons.1 (List.nodup_append.1 hnd).2.1).1 (by simp [e])
  rcases t2.priority (t1.nodup hnd) hm hmn hr hgot with g | ⟨r', hr', g⟩
  · exact .inl g
  · refine .inr ⟨r', hr', ?_⟩
    rcases g with g | ⟨k, a, b, hab, hk, g1, g2⟩
    · exact .inl g
    · refine .inr ⟨k, ?_, g1, g2⟩
      -- `k` is tried before `m`, so it is in front of `m`
      rw [hpm] at hnd t1
      rw [hab] at t1
      have hkp : k ∈ l1 ++ m :: (l2 ++ n :: l3) := t1.subset (by simp [hk])
      have hab' : (a ++ m :: b).Nodup := t1.nodup hnd
      rcases List.mem_append.1 hkp with g | g
      · exact g
      · rcases List.mem_cons.1 g with g | g
        · exact absurd g (fun e => (List.nodup_append.1 hab').2.2 k hk m (by simp) e)
        · have := behind_sublist hnd t1 g (by simp [hk])
          exact absurd rfl ((List.nodup_append.1 hab').2.2 k hk k (by simp [this]))

/-- Three nodes that want mutex 0; node 3 also needs mutex 1, which node 4 holds. Node 2 comes later than node 1 but is more urgent. -/
def contending : Plan Int Nat where
  node := fun
    | 0 => { type := .list, children := [1, 2, 3, 4], rhs := fun _ => 0 }
    | 1 => { type := .empty, anc := [0], rhs := fun _ => 0, mutexes := [0], priority := 5, start := some fun o => some (o.env == 1) }
    | 2 => { type := .empty, anc := [0], rhs := fun _ => 0, mutexes := [0], priority := 3, start := some fun o => some (o.env == 1) }
    | 3 => { type := .empty, anc := [0], rhs := fun _ => 0, mutexes := [0, 1], priority := 3, start := some fun o => some (o.env == 1) }
    | 4 => { type := .empty, anc := [0], rhs := fun _ => 0, mutexes := [1], endc := some fun _ => some false }
    | _ => { type := .empty, rhs := fun _ => 0 }
  wake := fun
    | .post _ => fun _ => [0, 1, 2, 3, 4]
    | _ => fun _ => []

/-- The situation of the theorem: 3 waits in front of 2 and was told to try; 2 gets the mutex because 3 lacks the other one; 1, in
front by time but less urgent, gets nothing. -/
example : ∃ s, Reach contending .check s ∧ s.pending = [] ++ 3 :: [] ++ 2 :: [1] ∧ s.q 3 = .pendingTry ∧ s.holder (.mutex 0) = none ∧
    (resolve contending s).holder (.mutex 0) = some 2 ∧ s.holder (.mutex 1) = some 4 := by
  obtain ⟨ph, s, h, hf⟩ := exists_run contending [.cmd (.ext 0 [0]), .macroStep, .cmd (.ext 1 [1, 3, 2]), .cmd .begin, .steps 3]
    (fun _ => 0) 0
    (fun x => (x.1, x.2.pending, x.2.q 3, x.2.holder (.mutex 0), (resolveFuel contending 3 x.2.pending x.2).holder (.mutex 0), x.2.holder (.mutex 1)))
    (.check, [3, 2, 1], .pendingTry, none, some 2, some 4) rfl
  simp only [Prod.mk.injEq] at hf
  obtain ⟨rfl, h1, h2, h3, h4, h5⟩ := hf
  rw [resolveFuel_eq contending 3 s.pending s (by rw [h1]; simp)] at h4
  exact ⟨s, h, h1, h2, h3, h4, h5⟩

end Verif.Props.Order
