import Verif.Exec.Wiring
import Verif.Props.Notify
import Verif.Props.Quiet
import Mathlib.Tactic.ByContra
set_option autoImplicit false
/-!
C94: a node is told of every change that matters to it (C08, C31 and C50 put together).
-/
namespace Verif.Props.Wiring
open Verif.Node Verif.Notify Verif.Exec
open Verif.Props.Node (reads)

theorem occurs_told {G : Graph} (hn : G.NoAlias) (relay : Nat → Bool) {es : List Ev} (hb : Balanced es) {e n v : Nat}
    (hc : (G.kind e).counts = true) (hh : 0 < held es e) (hl : G.listening es e n = true) (hv : Occurs G v e) : n ∈ G.publish relay (G.run es) v := by
  obtain ⟨_, hact⟩ := c49_activation G es hb
  have act : ∀ c, Keeps G e c → G.active (G.run es) c = true := by
    intro c hk
    by_cases hcc : (G.kind c).counts = true
    · exact (hact c hcc).2 ⟨e, hc, hh, hk⟩
    · simp [Graph.active, hcc]
  have gen : ∀ d, Occurs G v d → Keeps G e d → Affects G relay (G.run es) v d ∧ G.active (G.run es) v = true ∧ (G.kind v).source = true := by
    intro d h
    clear hv
    induction h with
    | self h => intro hk; exact ⟨.self h, act _ hk, h⟩
    | proxy h =>
      intro _
      have hnode := G.proxy_node _ _ h
      exact ⟨.proxy h, by simp [Graph.active, hnode, Kind.counts], by rw [hnode]; rfl⟩
    | func h hm _ ih =>
      intro hk
      obtain ⟨a, b⟩ := ih (keeps_sub hn hk (by rw [h]; exact hm) (by rw [h]; rfl))
      exact ⟨.func h hm a, b⟩
  obtain ⟨a, b, s⟩ := gen e hv (.self e)
  exact (c47_told G relay es v n s).2 ⟨b, e, hl, act e (.self e), a⟩

/-- The decision depends on the conditions looked at only. -/
theorem reads_all (t : NodeType) (s : NState) (parent : Option NState) (f : Failure) (c c' : Conds)
    (h : ∀ x, looksAt t s x → x.get c = x.get c') : getDest t s parent f c = getDest t s parent f c' := by
  by_cases hs : StateExists t s
  · refine Verif.Props.Node.reads_only t s hs parent f c c' ⟨h .ancExit trivial, h .ancInv trivial, h .ancEnd trivial⟩ ?_
    intro x hx
    have := h (.own x) hx
    cases x <;> simp_all [CondOf.get]
  · cases s <;> cases t <;> simp [StateExists] at hs <;> simp [getDest, fromFinishing, fromFailing]

variable {Val Env : Type} {P : Plan Val Env}

/-- If the decision of a node changes with its conditions, a source that occurs in a condition it looks at has changed. -/
theorem source_changed (W : Wiring P) (o1 o2 : Obs Val Env) (k : NodeId) (h : decideWith P o1 o2 k ≠ decideNext P o2 k) :
    ∃ c e v, looksAt (P.node k).type (o2.st k) c ∧ W.expr k c = some e ∧ Occurs W.G v e ∧ W.look v o1 ≠ W.look v o2 := by
  by_contra hno
  apply h
  refine reads_all _ _ _ _ _ _ (fun c hc => ?_)
  refine W.value k c o1 o2 (fun e v he hv => ?_)
  by_contra hne
  exact hno ⟨c, e, v, hc, he, hv, hne⟩

theorem told_of (W : Wiring P) (o : Obs Val Env) (k : NodeId) {c : CondOf} {e v : Nat} (hc : looksAt (P.node k).type (o.st k) c) (he : W.expr k c = some e)
    (hv : Occurs W.G v e) (x : Source) (hp : v ∈ W.published x) : k ∈ P.wake x o := by
  obtain ⟨h1, h2⟩ := W.heard o k c e hc he
  rw [W.wake]
  exact List.mem_flatMap.mpr ⟨v, hp, occurs_told W.noAlias W.relay (W.balanced o) (W.counts k c e he) h1 h2 hv⟩

theorem same_decide (o1 o2 : Obs Val Env) (k : NodeId) (h1 : o2.st = o1.st) (h2 : o2.fail = o1.fail) : decideWith P o1 o2 k = decideNext P o1 k := by
  unfold decideWith decideNext parentState; rw [h1, h2]

/-- **C94.** In a plan wired up through a network of expressions, every node is told of every change that makes a difference to what it does next. -/
theorem C94_told (W : Wiring P) : Notifies P := by
  constructor
  · intro n o1 om o2 hm h1 h2 h3 k hk hne
    obtain ⟨c, e, v, hc, he, hv, hl⟩ := source_changed W o1 o2 k hne
    rcases W.trans n o1 om o2 hm h1 h2 h3 v hl with hp | hp
    · refine .inl (told_of W om k ?_ he hv _ hp)
      rw [h1, ← hm.st k hk]; exact hc
    · exact .inr (told_of W o2 k hc he hv _ hp)
  · intro n o1 o2 hw k hne
    rw [← same_decide o1 o2 k hw.st hw.fail] at hne
    obtain ⟨c, e, v, hc, he, hv, hl⟩ := source_changed W o1 o2 k hne
    exact told_of W o2 k hc he hv _ (W.assign n o1 o2 hw v hl).1
  · intro n o1 o2 hw k hne
    rw [← same_decide o1 o2 k hw.st hw.fail] at hne
    obtain ⟨c, e, v, hc, he, hv, hl⟩ := source_changed W o1 o2 k hne
    exact told_of W o2 k hc he hv _ (W.assign n o1 o2 hw v hl).2
  · intro n o1 o2 hw hvars k hne
    rw [← same_decide o1 o2 k hw.st hw.fail] at hne
    obtain ⟨c, e, v, hc, he, hv, hl⟩ := source_changed W o1 o2 k hne
    exact told_of W o2 k hc he hv _ (W.ack n o1 o2 hw hvars v hl)

/-- **C94, from outside.** When the environment changes and the sources that change publish, every node to whose decision it makes a difference is notified. -/
theorem C94_outside (W : Wiring P) (o : Obs Val Env) (e : Env) (vs : List Nat) (h : ∀ v, W.look v o ≠ W.look v { o with env := e } → v ∈ vs) :
    ∀ k, decideNext P { o with env := e } k ≠ decideNext P o k → k ∈ vs.flatMap (W.G.publish W.relay (W.G.run (W.history { o with env := e }))) := by
  intro k hne
  have hs : decideWith P o { o with env := e } k ≠ decideNext P { o with env := e } k := by
    rw [same_decide o { o with env := e } k rfl rfl]; exact Ne.symm hne
  obtain ⟨c, x, v, hc, he, hv, hl⟩ := source_changed W o { o with env := e } k hs
  obtain ⟨h1, h2⟩ := W.heard { o with env := e } k c x hc he
  exact List.mem_flatMap.mpr ⟨v, h v hl, occurs_told W.noAlias W.relay (W.balanced _) (W.counts k c x he) h1 h2 hv⟩

/-- **C94 and C08.** In such a plan an executive that has come to rest leaves no node that could move. -/
theorem C94_quiescence (W : Wiring P) (hT : TreeOK P) {s : St Val Env} (h : ReachN P .idle s) (hc : s.cand = []) (n : NodeId)
    (hres : acquiresResources P n = false) (hroot : (P.node n).anc = [] → s.st n ≠ .inactive) : decideNext P s.obs n = none :=
  Verif.Props.Quiet.C08_quiescence (C94_told W) hT h hc n hres hroot

/-! ## An example -/

/-- Two nodes: an assignment (node 1) to variable 0 and an Empty node (node 2) that starts when the assignment is FINISHED and the variable is 1.
Expressions: node 1, the variable, a function of the two, the acknowledgement and the abort flag of the assignment. -/
def sampleGraph : Graph where
  size := 5
  kind := fun
    | 0 => .node
    | 1 => .leaf []
    | 2 => .func [0, 1] [0, 1]
    | 3 => .leaf []
    | 4 => .leaf []
    | _ => .inert
  subs_lt := by
    intro e c h
    match e with
    | 0 | 1 | 3 | 4 => simp [Kind.subs] at h
    | 2 => simp [Kind.subs] at h; omega
    | e + 5 => simp [Kind.subs] at h
  acts_lt := by
    intro e c h
    match e with
    | 0 | 1 | 3 | 4 => simp [Kind.acts] at h
    | 2 => simp [Kind.acts] at h; omega
    | e + 5 => simp [Kind.acts] at h
  proxy_node := by
    intro e t h
    match e with
    | 0 | 1 | 2 | 3 | 4 => simp at h
    | e + 5 => simp at h
  outside := by
    intro e h
    match e with
    | 0 | 1 | 2 | 3 | 4 => omega
    | e + 5 => rfl

/-- Node 2 listens to and, while WAITING, activates the function; node 1 its two flags. -/
def sampleHistory (o : Obs Int Unit) : List Ev :=
  [.listen 2 2, .listen 3 1, .listen 4 1] ++ (if o.st 2 = .waiting then [.activate 2] else []) ++ (if o.st 1 = .executing then [.activate 3] else []) ++
    (if o.st 1 = .failing then [.activate 4] else [])

/-- What publishes. -/
def samplePublished : Source → List Nat
  | .pre _ => []
  | .post n => if n = 1 then [0, 1, 3, 4] else [1]
  | _ => [1, 3, 4]

/-- The plan of the example. -/
def sample : Plan Int Unit where
  node := fun
    | 1 => { type := .assignment, rhs := fun _ => 1, dest := 0 }
    | 2 => { type := .empty, rhs := fun _ => 0, start := some fun o => some (o.st 1 == .finished && o.vars 0 == 1) }
    | _ => { type := .empty, rhs := fun _ => 0 }
  wake := fun x o => (samplePublished x).flatMap (sampleGraph.publish (fun _ => true) (sampleGraph.run (sampleHistory o)))

/-- Its wiring. -/
def sampleWiring : Wiring sample where
  G := sampleGraph
  noAlias := by
    intro e ss as h c hc
    match e with
    | 0 | 1 | 3 | 4 => simp [sampleGraph] at h
    | 2 => simp [sampleGraph] at h; rw [← h.2, h.1]; exact hc
    | e + 5 => simp [sampleGraph] at h
  history := sampleHistory
  balanced := by
    intro o a b h e
    have : ∀ x ∈ sampleHistory o, x ≠ .deactivate e := by
      intro x hx
      unfold sampleHistory at hx
      rintro rfl
      split at hx <;> split at hx <;> split at hx <;> simp at hx
    rw [List.count_eq_zero_of_not_mem (fun hm => this _ (by rw [h]; simp [hm]) rfl)]
    exact Nat.zero_le _
  relay := fun _ => true
  expr := fun
    | 2, .own .start => some 2
    | 1, .own .actionComplete => some 3
    | 1, .own .abortComplete => some 4
    | _, _ => none
  counts := by
    intro k c e h
    split at h <;> simp at h <;> subst h <;> rfl
  Value := NState × Int × Bool
  look := fun v o => match v with
    | 0 => (o.st 1, 0, false)
    | 1 => (.inactive, o.vars 0, false)
    | 3 => (.inactive, 0, o.ack 1)
    | 4 => (.inactive, 0, o.abort 1)
    | _ => (.inactive, 0, false)
  value := by
    intro k c o1 o2 h
    match k, c with
    | 2, .own .start =>
      have h0 := h 2 0 rfl (.func (c := 0) (ss := [0, 1]) (as := [0, 1]) rfl (by simp) (.self rfl))
      have h1 := h 2 1 rfl (.func (c := 1) (ss := [0, 1]) (as := [0, 1]) rfl (by simp) (.self rfl))
      simp only [Prod.mk.injEq, true_and, and_true] at h0 h1
      simp [CondOf.get, conds, sample, evalC, h0, h1]
    | 1, .own .actionComplete =>
      have h0 := h 3 3 rfl (.self rfl)
      simp only [Prod.mk.injEq, true_and, and_true] at h0
      simp [CondOf.get, conds, sample, h0]
    | 1, .own .abortComplete =>
      have h0 := h 4 4 rfl (.self rfl)
      simp only [Prod.mk.injEq, true_and, and_true] at h0
      simp [CondOf.get, conds, sample, h0]
    | 0, c => cases c <;> (try rename_i x; cases x) <;> rfl
    | k + 3, c => cases c <;> (try rename_i x; cases x) <;> rfl
    | 1, .ancExit => rfl
    | 1, .ancInv => rfl
    | 1, .ancEnd => rfl
    | 2, .ancExit => rfl
    | 2, .ancInv => rfl
    | 2, .ancEnd => rfl
    | 1, .own .skip | 1, .own .start | 1, .own .pre | 1, .own .exit | 1, .own .inv | 1, .own .endc | 1, .own .post | 1, .own .rep => rfl
    | 1, .own .childExit | 1, .own .childInv | 1, .own .childEnd | 1, .own .locals | 1, .own .body => rfl
    | 2, .own .skip | 2, .own .pre | 2, .own .exit | 2, .own .inv | 2, .own .endc | 2, .own .post | 2, .own .rep => rfl
    | 2, .own .childExit | 2, .own .childInv | 2, .own .childEnd | 2, .own .locals | 2, .own .body | 2, .own .actionComplete | 2, .own .abortComplete => rfl
  heard := by
    intro o k c e hl h
    split at h <;> simp at h <;> subst h
    · have : o.st 2 = .waiting := by cases hs : o.st 2 <;> simp [looksAt, sample, reads, hs] at hl ⊢
      unfold sampleHistory; rw [if_pos this]
      split <;> split <;> decide
    · have : o.st 1 = .executing := by cases hs : o.st 1 <;> simp [looksAt, sample, reads, hs] at hl ⊢
      unfold sampleHistory; rw [if_pos this]
      split <;> split <;> decide
    · have : o.st 1 = .failing := by cases hs : o.st 1 <;> simp [looksAt, sample, reads, hs] at hl ⊢
      unfold sampleHistory; rw [if_pos this]
      split <;> split <;> decide
  published := samplePublished
  trans := by
    intro n o1 om o2 hm _ _ _ v hv
    right
    have hvars : o2.vars 0 = o1.vars 0 := hm.vars 0 (by
      match n with
      | 0 | 1 | 2 => simp [sample]
      | n + 3 => simp [sample])
    by_cases hn : n = 1
    · subst hn
      match v with
      | 0 | 1 | 3 | 4 => simp [samplePublished]
      | 2 => exact absurd rfl hv
      | v + 5 => exact absurd rfl hv
    · exfalso
      apply hv
      match v with
      | 0 => simp [hm.st 1 (Ne.symm hn)]
      | 1 => simp [hvars]
      | 3 => simp [hm.ack 1 (Ne.symm hn)]
      | 4 => simp [hm.abort 1 (Ne.symm hn)]
      | 2 => rfl
      | v + 5 => rfl
  assign := by
    intro n o1 o2 hw v hv
    match v with
    | 0 => exact absurd (by simp [hw.st]) hv
    | 1 | 3 | 4 => simp [samplePublished]
    | 2 => exact absurd rfl hv
    | v + 5 => exact absurd rfl hv
  ack := by
    intro n o1 o2 hw _ v hv
    match v with
    | 0 => exact absurd (by simp [hw.st]) hv
    | 1 | 3 | 4 => simp [samplePublished]
    | 2 => exact absurd rfl hv
    | v + 5 => exact absurd rfl hv
  wake := fun _ _ => rfl

/-- In the example a waiting node 2 is told of the end of the assignment, and only while it waits. -/
theorem C94_example (o : Obs Int Unit) : (o.st 2 = .waiting → 2 ∈ sample.wake (.post 1) o) ∧ (o.st 2 ≠ .waiting → 2 ∉ sample.wake (.post 1) o) := by
  constructor
  · intro h
    exact told_of sampleWiring o 2 (c := .own .start) (e := 2) (v := 0) (by simp [looksAt, sample, reads, h]) rfl
      (.func (c := 0) (ss := [0, 1]) (as := [0, 1]) rfl (by simp) (.self rfl)) (.post 1) (by simp [sampleWiring, samplePublished])
  · intro h hm
    obtain ⟨v, hv, hm⟩ := List.mem_flatMap.mp hm
    have hs : (sampleGraph.kind v).source = true := by
      simp [samplePublished] at hv; rcases hv with rfl | rfl | rfl | rfl <;> rfl
    obtain ⟨_, e, hl, ha, haff⟩ := (c47_told sampleGraph _ _ v 2 hs).1 hm
    have he : e = 2 := by
      unfold sampleHistory at hl
      rw [if_neg h] at hl
      split at hl <;> split at hl <;>
      · simp [Graph.listening] at hl
        have := hl
        unfold Graph.object at this
        match e with
        | 0 | 1 | 3 | 4 => simp [sampleGraph] at this
        | 2 => rfl
        | e + 5 => simp [sampleGraph] at this
    subst he
    obtain ⟨_, hact⟩ := c49_activation sampleGraph (sampleHistory o) (sampleWiring.balanced o)
    obtain ⟨x, hx, hh, hk⟩ := (hact 2 rfl).1 ha
    have key : ∀ c, Keeps sampleGraph x c → c = 2 → x = 2 := by
      intro c hk
      induction hk with
      | self => exact id
      | @act d c _ hc hm ih =>
        intro e; subst e
        match d with
        | 0 | 1 | 3 | 4 => simp [sampleGraph, Kind.acts] at hm
        | 2 => simp [sampleGraph, Kind.acts] at hm
        | d + 5 => simp [sampleGraph, Kind.acts] at hm
    have hx2 := key 2 hk rfl
    subst hx2
    unfold sampleHistory at hh
    rw [if_neg h] at hh
    split at hh <;> split at hh <;> simp [held] at hh

end Verif.Props.Wiring
