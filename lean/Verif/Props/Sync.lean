import Verif.Exec.Serve
import Verif.Exec.RunN
import Verif.Props.Quiet
import Verif.Exec.Lost
/-
C06, C07, the positive part of C09, C32, C33: micro steps, races between a list and its children, service of waiting nodes, errors of the
queue protocol, deletion of finished plans.
-/
set_option maxRecDepth 100000
set_option linter.unusedSimpArgs false
namespace Verif.Props.Sync
open Verif.Node Verif.Exec

variable {Val Env : Type} {P : Plan Val Env}

/-! ## C07 -/

/-- C07: a complete micro step takes every node that needs no mutex or variable to exactly the state, outcome and failure type that follow
from the situation at the start of the micro step, whatever the order of the queues (a root counts once it has been added).
Provided every change of a condition notifies the nodes concerned. -/
theorem C07_synchronous (hN : Notifies P) (hT : TreeOK P) {s s' : St Val Env} (hr : ReachN P .check s) (h : MicroStep P s s') (n : NodeId)
    (hres : acquiresResources P n = false) (hroot : (P.node n).anc = [] → s.st n = .inactive → n ∈ s.cand) :
    (s'.st n, s'.out n, s'.fail n) = synchronousNext P s.obs n := by
  rcases (h.spec hN hT hr).2 n with g | ⟨g, _⟩ | ⟨g1, g2, _⟩
  · exact g
  · rw [hres] at g; cases g
  · obtain ⟨t, hc, hcand, hne, ht, hend⟩ := h
    obtain ⟨hrt, hot⟩ := hc.spec hr
    obtain ⟨hI, _, hchk⟩ := hrt.reach.inv
    obtain ⟨hIr, hor, hbr⟩ := hI.resolve (hchk rfl)
    have hin : n ∈ (resolve P t).change := by
      rcases checkPhase_added hr hc g1 g2 (hroot g1 g2) with e | e
      · rw [hcand] at e; cases e
      · exact resolveFrom_change _ _ _ e
    have hob : (resolve P t).obs = (resolve P t).base := by rw [hor, hbr]; exact hchk rfl
    obtain ⟨_, _, _, g4⟩ := ht.spec hN hT (hrt.step (.resolve _ hcand hne) (by simp)) hob
    rw [(g4 n).2 hin (by rw [hend]; simp), ← hob, hor, hot]

/-- C07 for nodes that need a mutex or variable: the same, or they do not move (they have to wait). -/
theorem C07_synchronous_resources (hN : Notifies P) (hT : TreeOK P) {s s' : St Val Env} (hr : ReachN P .check s) (h : MicroStep P s s')
    (n : NodeId) : (s'.st n, s'.out n, s'.fail n) = synchronousNext P s.obs n ∨
      (s'.st n, s'.out n, s'.fail n) = (s.st n, s.out n, s.fail n) := by
  rcases (h.spec hN hT hr).2 n with g | ⟨_, g⟩ | ⟨_, _, g⟩
  · exact .inl g
  · exact .inr g
  · exact .inr g

/-- C07, order independence: two complete micro steps from the same situation, with whatever queue contents and orders, agree on every
such node. -/
theorem C07_order_independent (hN : Notifies P) (hT : TreeOK P) {s s' t t' : St Val Env} (hs : ReachN P .check s) (ht : ReachN P .check t)
    (ho : s.obs = t.obs) (h1 : MicroStep P s s') (h2 : MicroStep P t t') (n : NodeId) (hres : acquiresResources P n = false)
    (hroot : (P.node n).anc = [] → s.st n = .inactive → n ∈ s.cand ∧ n ∈ t.cand) :
    s'.st n = t'.st n ∧ s'.out n = t'.out n ∧ s'.fail n = t'.fail n := by
  have e : s.st n = t.st n := congrFun (congrArg Obs.st ho) n
  have g1 := C07_synchronous hN hT hs h1 n hres (fun a b => (hroot a b).1)
  have g2 := C07_synchronous hN hT ht h2 n hres (fun a b => (hroot a (e.trans b)).2)
  rw [ho, ← g2] at g1
  simpa using g1

/-- C07, whole histories: every reported transition is what the rules for its node type give in the situation `o` at the start of the
micro step, whether or not the node had to wait for resources. -/
theorem C07_history (hN : Notifies P) (hT : TreeOK P) {ph : Phase} {s : St Val Env} (h : ReachN P ph s) {n a b o}
    (hl : .trans n a b o ∈ s.log) : o.st n = a ∧ ∃ d, decideNext P o n = some d ∧ d.state = b := by
  obtain ⟨pre, post, e⟩ := List.append_of_mem hl
  obtain ⟨h1, d, o', h2, h3, h4, h5, h6⟩ := h.reach.inv.1.N.log pre _ post e
  by_cases hb : b = .executing
  · subst hb
    have := h.logReady hN hT n a o hl
    obtain ⟨pre0, mid, g1, g2, g3⟩ := h.reach.baseOK.1 pre n a .executing o post e
    refine ⟨?_, _, this, rfl⟩
    have w := (getDest_executing (hd := rfl) this).1
    rw [w]
    have := (getDest_executing h2 h3).1
    rw [← h4, this]
  · have := h6 (fun g => hb g.1)
    subst this
    exact ⟨h4, d, h2, h3⟩

open Verif.Props.Quiet in
/-- The hypotheses are met, with two different orders of the check queue and nodes that move. -/
example : ∃ s t s' t', ReachN watching .check s ∧ ReachN watching .check t ∧ s.obs = t.obs ∧ s.cand ≠ t.cand ∧
    MicroStep watching s s' ∧ MicroStep watching t t' ∧ s.st 1 = .waiting ∧ s'.st 1 = .executing := by
  obtain ⟨ph, x, h, hf⟩ := exists_runN watching_good [.cmd (.ext 0 [0, 1, 2]), .macroStep] rfl (fun _ => 0) 0
    (fun x => (x.1, ((microFuel watching 10 { notifyAll [1, 2] { x.2 with env := 1 } with base := (notifyAll [1, 2] { x.2 with env := 1 }).obs }).map
        fun s => s.st 1), x.2.st 1, (notifyAll [1, 2] { x.2 with env := 1 }).cand,
      ((microFuel watching 10 { notifyAll [2, 1] { x.2 with env := 1 } with base := (notifyAll [2, 1] { x.2 with env := 1 }).obs }).map
        fun s => s.st 1), (notifyAll [2, 1] { x.2 with env := 1 }).cand))
    (.idle, some .executing, .waiting, [1, 2], some .executing, [2, 1]) rfl
  simp only [Prod.mk.injEq, Option.map_eq_some_iff] at hf
  obtain ⟨rfl, ⟨s', h1, h2⟩, h3, h4, ⟨t', h5, h6⟩, h7⟩ := hf
  refine ⟨_, _, s', t', (h.ext 1 [1, 2] (watching_good x 1 _ rfl)).step (.begin _) (by simp),
    (h.ext 1 [2, 1] (watching_good x 1 _ rfl)).step (.begin _) (by simp), ?_, ?_, microFuel_spec h1, microFuel_spec h5, ?_, h2⟩
  · simp [St.obs]
  · simp only [h4, h7]; decide
  · simpa using h3

/-! ## C06 -/

/-- Something above the node tells it to stop: an ancestor's exit condition is true, an ancestor's invariant is false, or an ancestor's
end condition is true. -/
def ToldToStop (P : Plan Val Env) (o : Obs Val Env) (c : NodeId) : Prop :=
  ∃ a ∈ (P.node c).anc, (∃ f, (P.node a).exit = some f ∧ f o = some true) ∨ (∃ f, (P.node a).inv = some f ∧ f o = some false) ∨
    (∃ f, (P.node a).endc = some f ∧ f o = some true)

theorem foldr_orC (f : NodeId → Cond) (l : List NodeId) {a} (ha : a ∈ l) (hf : f a = some (some true)) :
    isT (l.foldr (fun a acc => orC (f a) acc) none) = true := by
  have key : ∀ l : List NodeId, a ∈ l → l.foldr (fun a acc => orC (f a) acc) none = some (some true) := by
    intro l
    induction l with
    | nil => intro h; cases h
    | cons x l ih =>
      intro h
      simp only [List.foldr_cons]
      rcases List.mem_cons.1 h with e | e
      · rw [← e, hf]; cases l.foldr (fun a acc => orC (f a) acc) none <;> rfl
      · rw [ih e]
        cases f x with
        | none => rfl
        | some y => cases y with
          | none => rfl
          | some b => cases b <;> rfl
  rw [key l ha]; rfl

theorem foldr_andC (f : NodeId → Cond) (l : List NodeId) {a} (ha : a ∈ l) (hf : f a = some (some false)) :
    isF (l.foldr (fun a acc => andC (f a) acc) none) = true := by
  have key : ∀ l : List NodeId, a ∈ l → l.foldr (fun a acc => andC (f a) acc) none = some (some false) := by
    intro l
    induction l with
    | nil => intro h; cases h
    | cons x l ih =>
      intro h
      simp only [List.foldr_cons]
      rcases List.mem_cons.1 h with e | e
      · rw [← e, hf]; cases l.foldr (fun a acc => andC (f a) acc) none <;> rfl
      · rw [ih e]
        cases f x with
        | none => rfl
        | some y => cases y with
          | none => rfl
          | some b => cases b <;> rfl
  rw [key l ha]; rfl

/-- A WAITING node that is told to stop can only finish. -/
theorem toldToStop_waiting {o : Obs Val Env} {c : NodeId} (h : ToldToStop P o c) (hw : o.st c = .waiting) {d : Dest}
    (hd : decideNext P o c = some d) : d.state = .finished := by
  have hc : isT (conds P o c).ancExit = true ∨ isF (conds P o c).ancInv = true ∨ isT (conds P o c).ancEnd = true := by
    obtain ⟨a, ha, ⟨f, e1, e2⟩ | ⟨f, e1, e2⟩ | ⟨f, e1, e2⟩⟩ := h
    · left; exact foldr_orC (fun a => evalC (P.node a).exit o) _ ha (by simp [evalC, e1, e2])
    · right; left; exact foldr_andC (fun a => evalC (P.node a).inv o) _ ha (by simp [evalC, e1, e2])
    · right; right; exact foldr_orC (fun a => evalC (P.node a).endc o) _ ha (by simp [evalC, e1, e2])
  unfold decideNext at hd
  rw [hw] at hd
  simp only [getDest, fromWaiting] at hd
  split at hd
  · cases hd; rfl
  · split at hd
    · cases hd; rfl
    · split at hd
      · cases hd; rfl
      · split at hd
        · cases hd; rfl
        · exact absurd hc (by simp_all)

/-- C06, the part that holds. Consider a micro step after which list node `n` is in ITERATION_ENDED or FINISHED. Its children are not active after it (they are INACTIVE,
WAITING or FINISHED), provided that they are told to stop in the situation at the start of the micro step and, if `n` had already ended, were not
active then.
Missing (and false, see `C06_child_left_running`): the same when the condition that made the list end no longer holds. -/
theorem C06_no_active_children_partial (hN : Notifies P) (hT : TreeOK P) {s s' : St Val Env} (hr : ReachN P .check s) (h : MicroStep P s s')
    {n c : NodeId} (ht : (P.node n).type = .list) (hc : c ∈ (P.node n).children) (hp : (P.node c).anc.head? = some n)
    (hend : s'.st n = .iterationEnded ∨ s'.st n = .finished) (hstop : ToldToStop P s.obs c)
    (hfrom : s.st n = .finishing ∨ s.st n = .failing ∨
      ((s.st n = .iterationEnded ∨ s.st n = .finished) ∧ (s.st c = .inactive ∨ s.st c = .waiting ∨ s.st c = .finished))) :
    s'.st c = .inactive ∨ s'.st c = .waiting ∨ s'.st c = .finished := by
  have hnw : s.obs.st n ≠ .waiting ∧ s.obs.st n ≠ .executing := by
    show s.st n ≠ .waiting ∧ s.st n ≠ .executing
    rcases hfrom with e | e | ⟨e | e, _⟩ <;> rw [e] <;> simp
  -- the child before the micro step
  have hcs : s.st c = .inactive ∨ s.st c = .waiting ∨ s.st c = .finished := by
    have key : (s.st n = .finishing ∨ s.st n = .failing) → s.st c = .waiting ∨ s.st c = .finished := by
      intro hab
      have hd : ∃ d, decideNext P s.obs n = some d ∧ d.state = s'.st n := by
        rcases C07_synchronous_resources hN hT hr h n with g | g
        · unfold synchronousNext at g
          cases hd : decideNext P s.obs n with
          | none =>
            rw [hd] at g
            simp only [Prod.mk.injEq] at g
            have : s'.st n = s.st n := g.1
            rw [this] at hend
            rcases hab with e | e <;> rw [e] at hend <;> rcases hend with e | e <;> cases e
          | some d => rw [hd] at g; simp only [Prod.mk.injEq] at g; exact ⟨d, rfl, g.1.symm⟩
        · simp only [Prod.mk.injEq] at g
          rw [g.1] at hend
          rcases hab with e | e <;> rw [e] at hend <;> rcases hend with e | e <;> cases e
      obtain ⟨d, hd, hds⟩ := hd
      unfold decideNext at hd
      rw [ht] at hd
      have := Verif.Props.Node.C05_list_waits_for_children _ _ _ (s.st n) d hab hd
        (by rw [hds]; rcases hend with e | e <;> rw [e] <;> simp)
      simp only [Verif.Props.Node.True', conds, ht, Option.some.injEq, allWaitingOrFinished, List.all_eq_true] at this
      simpa [St.obs] using this c hc
    rcases hfrom with e | e | ⟨_, e⟩
    · exact .inr (key (.inl e))
    · exact .inr (key (.inr e))
    · exact e
  rcases C07_synchronous_resources hN hT hr h c with g | g
  · unfold synchronousNext at g
    cases hd : decideNext P s.obs c with
    | none =>
      rw [hd] at g
      simp only [Prod.mk.injEq] at g
      rw [g.1]; exact hcs
    | some d =>
      rw [hd] at g
      simp only [Prod.mk.injEq] at g
      rw [g.1]
      rcases hcs with e | e | e
      · have hd' := hd
        unfold decideNext at hd'
        rw [show s.obs.st c = .inactive from e] at hd'
        have hps : parentState P s.obs c = some (s.obs.st n) := by unfold parentState; rw [hp]; rfl
        rw [hps] at hd'
        cases hx : s.obs.st n <;> rw [hx] at hd' <;> simp [getDest, fromInactive] at hd'
        · exact absurd hx hnw.2
        · rw [← hd']; simp
      · right; right; exact toldToStop_waiting hstop e hd
      · left
        have hd' := hd
        unfold decideNext at hd'
        rw [show s.obs.st c = .finished from e] at hd'
        have hps : parentState P s.obs c = some (s.obs.st n) := by unfold parentState; rw [hp]; rfl
        rw [hps] at hd'
        cases hx : s.obs.st n <;> rw [hx] at hd' <;> simp [getDest, fromFinished] at hd'
        exact absurd hx hnw.1
  · simp only [Prod.mk.injEq] at g
    rw [g.1]; exact hcs

/-- A list (0) that ends when its child is EXECUTING and env is 1; the child (1), Empty, repeats, and ends when the list is EXECUTING and
env is 1. Both are notified of each other's state changes. -/
def racing : Plan Int Nat where
  node := fun
    | 0 => { type := .list, children := [1], rhs := fun _ => 0, endc := some fun o => some (o.st 1 == .executing && o.env == 1),
             rep := some fun _ => some false }
    | 1 => { type := .empty, anc := [0], rhs := fun _ => 0, endc := some fun o => some (o.st 0 == .executing && o.env == 1),
             rep := some fun _ => some true }
    | _ => { type := .empty, rhs := fun _ => 0 }
  wake := fun
    | .post 0 => fun _ => [1]
    | .post 1 => fun _ => [0, 1]
    | _ => fun _ => []

theorem racing_conds (o1 o2 : Obs Int Nat) (k : NodeId) (h0 : k = 0 → o1.st 1 = o2.st 1) (h1 : k = 1 → o1.st 0 = o2.st 0 ∧ o1.st 1 = o2.st 1)
    (he : k = 0 ∨ k = 1 → o1.env = o2.env) : conds racing o1 k = conds racing o2 k := by
  match k with
  | 0 => simp [conds, racing, ancExit, ancInv, ancEnd, evalC, allFinished, allWaitingOrFinished, h0 rfl, he (.inl rfl)]
  | 1 => obtain ⟨e1, e2⟩ := h1 rfl; simp [conds, racing, ancExit, ancInv, ancEnd, evalC, orC, andC, e1, e2, he (.inr rfl)]
  | k + 2 => simp [conds, racing, ancExit, ancInv, ancEnd, evalC]

theorem racing_same {o1 o2 : Obs Int Nat} {k : NodeId} (h : conds racing o1 k = conds racing o2 k) (hs : o2.st = o1.st) (hf : o2.fail = o1.fail) :
    decideNext racing o1 k = decideNext racing o2 k := by
  unfold decideNext parentState; rw [h, hs, hf]

theorem racing_notifies : Notifies racing := by
  have wr : ∀ n o1 o2, WrittenBy racing n o1 o2 → ∀ k, decideNext racing o1 k = decideNext racing o2 k := by
    intro n o1 o2 hw k
    exact racing_same (racing_conds o1 o2 k (fun _ => by rw [hw.st]) (fun _ => by rw [hw.st]; exact ⟨rfl, rfl⟩) (fun _ => hw.env.symm)) hw.st hw.fail
  constructor
  · intro n o1 om o2 hm _ _ _ k hk hne
    have he : o1.env = o2.env := by rcases hm.env with e | e <;> rw [e]; rfl
    by_cases h0 : n = 0 ∧ k = 1
    · right; rw [h0.1, h0.2]; simp [racing]
    · by_cases h1 : n = 1 ∧ k = 0
      · right; rw [h1.1, h1.2]; simp [racing]
      · exfalso; apply hne
        unfold decideWith decideNext
        rw [racing_conds o1 o2 k ?_ ?_ (fun _ => he)]
        · intro e; exact (hm.st 1 (fun e1 => h1 ⟨e1.symm, e⟩)).symm
        · intro e
          exact ⟨(hm.st 0 (fun e1 => h0 ⟨e1.symm, e⟩)).symm, (hm.st 1 (fun e1 => hk (by rw [e, e1]))).symm⟩
  · intro n o1 o2 hw k hne; exact absurd (wr n o1 o2 hw k) hne
  · intro n o1 o2 hw k hne; exact absurd (wr n o1 o2 hw k) hne
  · intro n o1 o2 hw _ k hne; exact absurd (wr n o1 o2 hw k) hne

theorem racing_tree : TreeOK racing := by
  intro k p h
  match k with
  | 0 => simp [racing] at h
  | 1 => simp [racing] at h; subst h; simp [racing]
  | k + 2 => simp [racing] at h

theorem racing_good (s : St Int Nat) (e : Nat) (ns : List NodeId) (h : (ns.contains 0 && ns.contains 1) = true) :
    ∀ k, decideNext racing { s.obs with env := e } k ≠ decideNext racing s.obs k → k ∈ ns := by
  intro k hk
  simp at h
  by_cases h0 : k = 0
  · exact h0 ▸ h.1
  · by_cases h1 : k = 1
    · exact h1 ▸ h.2
    · refine absurd ?_ hk
      exact racing_same (racing_conds _ _ k (fun e => absurd e h0) (fun e => absurd e h1) (fun e => absurd e (by simp [h0, h1]))) rfl rfl

/-- C06 is false of the code, with all notifications as they should be: the list is FINISHED, nothing is left to check, and its child is
EXECUTING. (The list goes from FINISHING to ITERATION_ENDED in the same micro step in which its WAITING child, which is no longer told to stop because the
list's end condition has become false again, starts: `ListNode.cc` looks at the children's states only, and `NodeImpl.cc`
`getDestStateFromWaiting` does not look at the parent's state.) -/
theorem C06_child_left_running : Notifies racing ∧ TreeOK racing ∧ ∃ s, ReachN racing .idle s ∧ s.cand = [] ∧ s.st 0 = .finished ∧
    (racing.node 0).children = [1] ∧ s.st 1 = .executing := by
  refine ⟨racing_notifies, racing_tree, ?_⟩
  obtain ⟨ph, s, h, hf⟩ := exists_runN racing_good [.cmd (.ext 0 [0, 1]), .macroStep, .cmd (.ext 1 [0, 1]), .macroStep] rfl (fun _ => 0) 0
    (fun x => (x.1, x.2.cand, x.2.st 0, x.2.st 1)) (.idle, [], .finished, .executing) rfl
  simp only [Prod.mk.injEq] at hf
  obtain ⟨rfl, h1, h2, h3⟩ := hf
  exact ⟨s, h, h1, h2, rfl, h3⟩

/-- A list (0) that exits when env is 1, with a child (1) that starts when env is 2. -/
def exiting : Plan Int Nat where
  node := fun
    | 0 => { type := .list, children := [1], rhs := fun _ => 0, exit := some fun o => some (o.env == 1), rep := some fun _ => some false }
    | 1 => { type := .empty, anc := [0], rhs := fun _ => 0, start := some fun o => some (o.env == 2), rep := some fun _ => some false }
    | _ => { type := .empty, rhs := fun _ => 0 }
  wake := fun _ _ => [0, 1]

/-- The hypotheses of the positive part are met by a list going from FAILING to ITERATION_ENDED. -/
example : ∃ s s', Reach exiting .check s ∧ MicroStep exiting s s' ∧ s.st 0 = .failing ∧ s'.st 0 = .iterationEnded ∧ ToldToStop exiting s.obs 1 := by
  obtain ⟨ph, x, h, hf⟩ := exists_run exiting [.cmd (.ext 0 [0, 1]), .macroStep, .cmd (.ext 1 [0, 1]), .cmd .begin, .steps 6] (fun _ => 0) 0
    (fun x => (x.1, (microFuel exiting 10 x.2).map fun s => s.st 0, x.2.st 0, x.2.env))
    (.check, some .iterationEnded, .failing, 1) rfl
  simp only [Prod.mk.injEq, Option.map_eq_some_iff] at hf
  obtain ⟨rfl, ⟨s', h1, h2⟩, h3, h4⟩ := hf
  exact ⟨x, s', h, microFuel_spec h1, h3, h2, 0, by simp [exiting], .inl ⟨_, rfl, by simp [St.obs, h4]⟩⟩

/-! ## C09, the part that holds -/

/-- C09, the part that holds, waking: whenever a resource is released, each node on its wait list is still in the queue of waiting nodes and
is marked to try again. -/
theorem C09_release_wakes_partial {ph : Phase} {s : St Val Env} (h : Reach P ph s) {r : Res} {m n : NodeId} (hh : s.holder r = some m)
    (hw : n ∈ s.waiters r) : n ∈ (release r m s).pending ∧ r ∈ resources P n ∧ (release r m s).holder r = none ∧
      ((release r m s).q n = .pendingTry ∨ (release r m s).q n = .pendingTryCheck) := by
  obtain ⟨h1, h2⟩ := h.inv.1.Q.waitIn r n hw
  have h3 := h.inv.1.Q.pendQ n h1
  unfold release
  rw [if_pos hh]
  refine ⟨h1, h2, by simp, ?_⟩
  simp only [hw, if_true]
  cases hq : s.q n <;> rw [hq] at h3 <;> first | exact h3.elim | simp [availQ]

/-- C09, the part that holds, service: if the conditions of no waiting node have changed since it was put into the queue, then every waiting node that is marked to try
again, can have all it needs and competes with nobody ahead of it in the queue, gets its resources now and starts in this micro step.
Missing (and false, see `C09_lost_node` and `C09_skipped_node`): the same when conditions of waiting nodes have changed. -/
theorem C09_served_partial {s : St Val Env} (h : Reach P .check s) {n : NodeId} {l1 l2 : List NodeId} (hp : s.pending = l1 ++ n :: l2)
    (hplain : ∀ k ∈ s.pending, s.q k = .pending ∨ s.q k = .pendingTry) (hq : s.q n = .pendingTry) (hnd : (resources P n).Nodup)
    (hfree : ∀ r ∈ resources P n, s.holder r = none) (hd : ∀ m ∈ l1, ∀ r ∈ resources P m, r ∉ resources P n) :
    n ∈ (resolve P s).change ∧ ∀ r ∈ resources P n, (resolve P s).holder r = some n := by
  have hI := h.inv
  have hc : n ∈ (resolve P s).change := by
    unfold resolve
    rw [hp]
    exact resolveFrom_serves l1 l2 ⟨hq, hnd, hfree⟩ (hp ▸ hI.1.Q.pendingNodup) (hp ▸ hplain) hd
  refine ⟨hc, ?_⟩
  have hI' := (hI.1.resolve (hI.2.2 rfl)).1
  have hF := (resolve_frame (P := P) s).fields
  have hw : s.st n = .waiting := (hI.1.N.pend n (by rw [hp]; simp)).1
  -- it had no other transition to make: `eligible` was not consulted for nodes that only have to try
  intro r hr
  obtain ⟨d, o, hd, ho, _, hnx, _⟩ := hI'.N.dec n hc
  by_cases hx : d.state = .executing
  · exact hI'.N.held n (.inr ⟨hc, by rw [hnx, hx]⟩) r hr
  · exfalso
    have hnxs : (resolve P s).nx n = s.nx n := by
      unfold resolve; rw [resolveFrom_nx s.pending hI.1.Q.pendingNodup hplain]
    rw [hnx, (hI.1.N.pend n (by rw [hp]; simp)).2.1] at hnxs
    exact hx (by simpa using hnxs)

open Verif.Props.Quiet in
/-- The hypotheses are met: node 0 has released the mutex; nodes 1 and 2 wait for it. -/
example : ∃ s, Reach rivals .check s ∧ s.pending = [] ++ 1 :: [2] ∧ (∀ k ∈ s.pending, s.q k = .pending ∨ s.q k = .pendingTry) ∧
    s.q 1 = .pendingTry ∧ (resources rivals 1).Nodup ∧ (∀ r ∈ resources rivals 1, s.holder r = none) ∧ s.st 0 = .iterationEnded := by
  obtain ⟨ph, s, h, hf⟩ := exists_run rivals [.cmd (.ext 0 [0, 1, 2, 3]), .macroStep, .cmd (.ext 3 [0]), .cmd .begin, .steps 4] (fun _ => 0) 0
    (fun x => (x.1, x.2.pending, x.2.q 1, x.2.q 2, x.2.holder (.mutex 0), x.2.st 0))
    (.check, [1, 2], .pendingTry, .pendingTry, none, .iterationEnded) rfl
  simp only [Prod.mk.injEq] at hf
  obtain ⟨rfl, h1, h2, h3, h4, h5⟩ := hf
  refine ⟨s, h, h1, ?_, h2, by simp [resources, rivals], ?_, h5⟩
  · rw [h1]; intro k hk; simp at hk; rcases hk with e | e <;> subst e
    · exact .inr h2
    · exact .inr h3
  · intro r hr; simp [resources, rivals] at hr; subst hr; exact h4

/-! ## C32 -/

/-- Two Empty roots sharing mutex 0. Node 0 ends when env is 1. Two conditions of node 1, start and pre, depend on whether node 0 is
INACTIVE or WAITING; each of them notifies node 1 when node 0 changes state. -/
def sharing : Plan Int Nat where
  node := fun
    | 0 => { type := .empty, rhs := fun _ => 0, mutexes := [0], endc := some fun o => some (o.env == 1), rep := some fun _ => some false }
    | 1 => { type := .empty, rhs := fun _ => 0, mutexes := [0], start := some fun o => some (o.st 0 != .waiting),
             pre := some fun o => some (o.st 0 != .inactive), rep := some fun _ => some false }
    | _ => { type := .empty, rhs := fun _ => 0 }
  wake := fun
    | .post 0 => fun _ => [1, 1]
    | _ => fun _ => []

theorem sharing_conds (o1 o2 : Obs Int Nat) (k : NodeId) (h0 : k = 1 → o1.st 0 = o2.st 0) (he : k = 0 → o1.env = o2.env) :
    conds sharing o1 k = conds sharing o2 k := by
  match k with
  | 0 => simp [conds, sharing, ancExit, ancInv, ancEnd, evalC, he rfl]
  | 1 => simp [conds, sharing, ancExit, ancInv, ancEnd, evalC, h0 rfl]
  | k + 2 => simp [conds, sharing, ancExit, ancInv, ancEnd, evalC]

theorem sharing_same {o1 o2 : Obs Int Nat} {k : NodeId} (h : conds sharing o1 k = conds sharing o2 k) (hs : o2.st = o1.st) (hf : o2.fail = o1.fail) :
    decideNext sharing o1 k = decideNext sharing o2 k := by
  unfold decideNext parentState; rw [h, hs, hf]

theorem sharing_notifies : Notifies sharing := by
  have wr : ∀ n o1 o2, WrittenBy sharing n o1 o2 → ∀ k, decideNext sharing o1 k = decideNext sharing o2 k := by
    intro n o1 o2 hw k
    exact sharing_same (sharing_conds o1 o2 k (fun _ => by rw [hw.st]) (fun _ => hw.env.symm)) hw.st hw.fail
  constructor
  · intro n o1 om o2 hm _ _ _ k hk hne
    have he : o1.env = o2.env := by rcases hm.env with e | e <;> rw [e]; rfl
    by_cases h0 : n = 0 ∧ k = 1
    · right; rw [h0.1, h0.2]; simp [sharing]
    · exfalso; apply hne
      unfold decideWith decideNext
      rw [sharing_conds o1 o2 k ?_ (fun _ => he)]
      intro e; exact (hm.st 0 (fun e1 => h0 ⟨e1.symm, e⟩)).symm
  · intro n o1 o2 hw k hne; exact absurd (wr n o1 o2 hw k) hne
  · intro n o1 o2 hw k hne; exact absurd (wr n o1 o2 hw k) hne
  · intro n o1 o2 hw _ k hne; exact absurd (wr n o1 o2 hw k) hne

theorem sharing_good (s : St Int Nat) (e : Nat) (ns : List NodeId) (h : (ns.contains 0) = true) :
    ∀ k, decideNext sharing { s.obs with env := e } k ≠ decideNext sharing s.obs k → k ∈ ns := by
  intro k hk
  simp at h
  by_cases h0 : k = 0
  · exact h0 ▸ h
  · refine absurd ?_ hk
    exact sharing_same (sharing_conds _ _ k (fun _ => rfl) (fun e => absurd e h0)) rfl rfl

/-- C32 is false of the code: node 0 ends and releases its mutex, which marks the waiting node 1 to try again; node 0's change of state then
changes two conditions of node 1, and the second notification finds node 1 in a status for which `notify` reports an error and stops the
executive (`NodeImpl.cc:614-623`). -/
theorem C32_assertion_fails : Notifies sharing ∧ TreeOK sharing ∧ ∃ ph s, ReachN sharing ph s ∧ Err.tryCheck 1 ∈ s.err := by
  refine ⟨sharing_notifies, fun k p h => ?_, ?_⟩
  · match k with
    | 0 | 1 => simp [sharing] at h
    | k + 2 => simp [sharing] at h
  obtain ⟨ph, s, h, hf⟩ := exists_runN sharing_good [.cmd (.ext 0 [0, 1]), .macroStep, .cmd (.ext 1 [0]), .macroStep] rfl (fun _ => 0) 0
    (fun x => x.2.err) [.tryCheck 1] rfl
  simp only at hf
  exact ⟨ph, s, h, by rw [hf]; simp⟩

/-- C32, the part that holds: no other assertion of the queue protocol ever fails (a node is put into the state change queue only when it
is in no queue, `resourceCheckEligible` sees only waiting nodes, a root that finishes can be queued for deletion, `transition` is
called only when there is a transition to make).
Missing (and false, see `C32_assertion_fails`): notification of a node that is already marked to be checked and tried. -/
theorem C32_queue_protocol_partial {ph : Phase} {s : St Val Env} (h : Reach P ph s) : Err.internal ∉ s.err := h.inv.1.Q.noInternal

/-! ## C33 -/

/-- C33, the part that holds: a root that has finished is referred to by no queue of the executive and no wait list. -/
theorem C33_root_unqueued_partial {ph : Phase} {s : St Val Env} (h : Reach P ph s) {n : NodeId} (hroot : (P.node n).anc = [])
    (hf : s.st n = .finished) : n ∉ s.cand ∧ n ∉ s.change ∧ n ∉ s.pending ∧ ∀ r, n ∉ s.waiters r := by
  have hl := h.finishedRoot hroot hf
  refine ⟨?_, hl.2.1, hl.1, fun r hw => hl.1 (h.inv.1.Q.waitIn r n hw).1⟩
  intro hc
  exact hl.2.2.ne_check ((h.inv.1.Q.candIff n).1 hc)

/-- C33, a finished root never becomes active again, whatever happens. -/
theorem C33_root_stays_finished {ph ph' : Phase} {s s' : St Val Env} (h : Reach P ph s) {n : NodeId} (hroot : (P.node n).anc = [])
    (hf : s.st n = .finished) (hc : Continues P (ph, s) (ph', s')) : s'.st n = .finished := by
  have : ∀ x y, Continues P x y → Reach P x.1 x.2 → Lost true n x.2 → Reach P y.1 y.2 ∧ Lost true n y.2 ∧ y.2.st n = x.2.st n := by
    intro x y hxy hx hl
    induction hxy with
    | refl => exact ⟨hx, hl, rfl⟩
    | @step y z _ hs ih =>
      obtain ⟨i1, i2, i3⟩ := ih
      obtain ⟨j1, j2⟩ := i2.step (ph := y.1) (s := y.2) i1 hs
      exact ⟨i1.step (ph := y.1) (s := y.2) hs, j1, j2.trans i3⟩
  rw [(this _ _ hc h (h.finishedRoot hroot hf)).2.2]; exact hf

/-- Like `racing`, but the child needs mutex 0, and another root (2) takes that mutex when the child has finished an iteration. -/
def orphaning : Plan Int Nat where
  node := fun
    | 0 => { type := .list, children := [1], rhs := fun _ => 0, endc := some fun o => some (o.st 1 == .executing && o.env == 1),
             rep := some fun _ => some false }
    | 1 => { type := .empty, anc := [0], rhs := fun _ => 0, mutexes := [0], endc := some fun o => some (o.st 0 == .executing && o.env == 1),
             rep := some fun _ => some true }
    | 2 => { type := .empty, rhs := fun _ => 0, mutexes := [0], start := some fun o => some (o.st 1 == .iterationEnded),
             endc := some fun _ => some false, rep := some fun _ => some false }
    | _ => { type := .empty, rhs := fun _ => 0 }
  wake := fun
    | .post 0 => fun _ => [1]
    | .post 1 => fun _ => [0, 1, 2]
    | _ => fun _ => []

theorem orphaning_conds (o1 o2 : Obs Int Nat) (k : NodeId) (h0 : k = 0 ∨ k = 2 → o1.st 1 = o2.st 1)
    (h1 : k = 1 → o1.st 0 = o2.st 0 ∧ o1.st 1 = o2.st 1)
    (he : k = 0 ∨ k = 1 → o1.env = o2.env) : conds orphaning o1 k = conds orphaning o2 k := by
  match k with
  | 0 => simp [conds, orphaning, ancExit, ancInv, ancEnd, evalC, allFinished, allWaitingOrFinished, h0 (.inl rfl), he (.inl rfl)]
  | 1 => obtain ⟨e1, e2⟩ := h1 rfl; simp [conds, orphaning, ancExit, ancInv, ancEnd, evalC, orC, andC, e1, e2, he (.inr rfl)]
  | 2 => simp [conds, orphaning, ancExit, ancInv, ancEnd, evalC, h0 (.inr rfl)]
  | k + 3 => simp [conds, orphaning, ancExit, ancInv, ancEnd, evalC]

theorem orphaning_same {o1 o2 : Obs Int Nat} {k : NodeId} (h : conds orphaning o1 k = conds orphaning o2 k) (hs : o2.st = o1.st)
    (hf : o2.fail = o1.fail) : decideNext orphaning o1 k = decideNext orphaning o2 k := by
  unfold decideNext parentState; rw [h, hs, hf]

theorem orphaning_notifies : Notifies orphaning := by
  have wr : ∀ n o1 o2, WrittenBy orphaning n o1 o2 → ∀ k, decideNext orphaning o1 k = decideNext orphaning o2 k := by
    intro n o1 o2 hw k
    exact orphaning_same (orphaning_conds o1 o2 k (fun _ => by rw [hw.st]) (fun _ => by rw [hw.st]; exact ⟨rfl, rfl⟩) (fun _ => hw.env.symm)) hw.st hw.fail
  constructor
  · intro n o1 om o2 hm _ _ _ k hk hne
    have he : o1.env = o2.env := by rcases hm.env with e | e <;> rw [e]; rfl
    by_cases h0 : n = 0 ∧ k = 1
    · right; rw [h0.1, h0.2]; simp [orphaning]
    · by_cases h1 : n = 1 ∧ (k = 0 ∨ k = 2)
      · right; rw [h1.1]; rcases h1.2 with e | e <;> rw [e] <;> simp [orphaning]
      · exfalso; apply hne
        unfold decideWith decideNext
        rw [orphaning_conds o1 o2 k ?_ ?_ (fun _ => he)]
        · intro e; exact (hm.st 1 (fun e1 => h1 ⟨e1.symm, e⟩)).symm
        · intro e
          exact ⟨(hm.st 0 (fun e1 => h0 ⟨e1.symm, e⟩)).symm, (hm.st 1 (fun e1 => hk (by rw [e, e1]))).symm⟩
  · intro n o1 o2 hw k hne; exact absurd (wr n o1 o2 hw k) hne
  · intro n o1 o2 hw k hne; exact absurd (wr n o1 o2 hw k) hne
  · intro n o1 o2 hw _ k hne; exact absurd (wr n o1 o2 hw k) hne

theorem orphaning_good (s : St Int Nat) (e : Nat) (ns : List NodeId) (h : (ns.contains 0 && ns.contains 1) = true) :
    ∀ k, decideNext orphaning { s.obs with env := e } k ≠ decideNext orphaning s.obs k → k ∈ ns := by
  intro k hk
  simp at h
  by_cases h0 : k = 0
  · exact h0 ▸ h.1
  · by_cases h1 : k = 1
    · exact h1 ▸ h.2
    · refine absurd ?_ hk
      exact orphaning_same (orphaning_conds _ _ k (fun _ => rfl) (fun _ => ⟨rfl, rfl⟩) (fun e => absurd e (by simp [h0, h1]))) rfl rfl

/-- C33 is false of the code: nothing is left to do (so `runExec` deletes finished plans now, `ExecApplication.cc:495-506`), list 0 has finished
and is to be deleted with its child 1, and node 1 is in the queue of nodes waiting for a mutex, which still refers to it after the
deletion. -/
theorem C33_dangling : Notifies orphaning ∧ TreeOK orphaning ∧ ∃ s, ReachN orphaning .idle s ∧ s.cand = [] ∧ 0 ∈ s.fin ∧
    (orphaning.node 0).children = [1] ∧ 1 ∈ s.pending ∧ s.err = [] := by
  refine ⟨orphaning_notifies, fun k p h => ?_, ?_⟩
  · match k with
    | 0 | 2 => simp [orphaning] at h
    | 1 => simp [orphaning] at h; subst h; simp [orphaning]
    | k + 3 => simp [orphaning] at h
  obtain ⟨ph, s, h, hf⟩ := exists_runN orphaning_good [.cmd (.ext 0 [0, 1, 2]), .macroStep, .cmd (.ext 1 [0, 1]), .macroStep] rfl (fun _ => 0) 0
    (fun x => (x.1, x.2.cand, x.2.fin, x.2.pending, x.2.err)) (.idle, [], [0], [1], []) rfl
  simp only [Prod.mk.injEq] at hf
  obtain ⟨rfl, h1, h2, h3, h4⟩ := hf
  exact ⟨s, h, h1, by rw [h2]; simp, rfl, by rw [h3]; simp, h4⟩

end Verif.Props.Sync
