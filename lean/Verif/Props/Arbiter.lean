import Mathlib.Tactic.ClearExcept
import Verif.Arbiter.Lemmas
/-
Property theorems about the resource arbiter: C17 (no over-allocation), C18 (every command decided once),
C19 (greedy by priority), C20 (release returns what was taken), C29 (explicit requests), C30 (hierarchies).
-/
namespace Verif.Props.Arbiter
open Verif.Arbiter

/-! ## Specification vocabulary -/

/-- A batch of commands with their resource requests, in submission order. -/
abbrev Batch := List (Cmd × List Request)

/-- One interaction with the arbiter. -/
inductive Op
  | submit (batch : Batch)
  | release (c : Cmd)

/-- Run a history; `none` if the hierarchy recursion does not end within the stack. -/
def run (fuel : Nat) (h : Hierarchy) (s : State) : List Op → Option State
  | [] => some s
  | .submit b :: ops => do
    let (s', _, _) ← arbitrate fuel h s b
    run fuel h s' ops
  | .release c :: ops => run fuel h (release s c) ops

/-- No request and no hierarchy weight is negative (no "producer" commands); capacities are not negative. -/
def NonNegative (h : Hierarchy) (ops : List Op) : Prop :=
  (∀ n node, h.find n = some node → 0 ≤ node.max ∧ ∀ c ∈ node.children, 0 ≤ c.weight) ∧
  (∀ b, Op.submit b ∈ ops → ∀ p ∈ b, ∀ r ∈ p.2, 0 ≤ r.upperBound)

/-- Capacity of a resource: as listed in the hierarchy, otherwise 1.0. -/
def capacity (h : Hierarchy) (n : Name) : Int :=
  match h.lookup n with
  | some node => node.max
  | none => (2 : Int) ^ 1074

theorem capacity_eq (h : Hierarchy) (n : Name) : maxValue h n = capacity h n := by
  unfold maxValue capacity Hierarchy.find one
  cases h.lookup n <;> simp

/-! ## The arbitration loop -/

theorem loop_cmds (h : Hierarchy) (es : List Entry) (est : Ests) (s : State) :
    ((arbitrateLoop h es est s).2.1 ++ (arbitrateLoop h es est s).2.2).Perm (es.map (·.cmd)) := by
  induction es generalizing est s with
  | nil => exact List.Perm.refl _
  | cons e es ih =>
    simp only [arbitrateLoop]
    cases tryRequests h e.resources est with
    | none => exact List.perm_middle.trans (List.Perm.cons _ (ih est s))
    | some est' => exact List.Perm.cons _ (ih est' _)

/-- Invariant connecting estimates, base amounts and allocation within one batch. -/
structure BatchInv (h : Hierarchy) (base : Name → Int) (est : Ests) (s : State) : Prop where
  range : ∀ n, 0 ≤ base n ∧ base n ≤ maxValue h n
  ren : ∀ n, 0 ≤ (est n).renewable ∧ (est n).renewable ≤ base n
  con : ∀ n, base n ≤ (est n).consumable ∧ (est n).consumable ≤ maxValue h n
  alloc : ∀ n, s.allocated n = (est n).renewable + (est n).consumable - base n

theorem amount_split (n : Name) (rs : List Res) : amountOf n rs = negOf n rs + posOf n rs := by
  induction rs with
  | nil => rfl
  | cons r rs ih =>
    simp only [amountOf, negOf, posOf, total] at ih ⊢
    rw [ih]
    by_cases h1 : r.name = n
    · by_cases h2 : r.weight < 0
      · have : ¬ 0 ≤ r.weight := by omega
        simp [h1, h2, this]; omega
      · have : 0 ≤ r.weight := by omega
        simp [h1, h2, this]; omega
    · simp [h1]

theorem neg_nonpos (n : Name) (rs : List Res) : negOf n rs ≤ 0 ∧ 0 ≤ posOf n rs := by
  induction rs with
  | nil => simp [negOf, posOf, total]
  | cons r rs ih =>
    simp only [negOf, posOf, total] at ih ⊢
    constructor
    · split <;> omega
    · split <;> omega

theorem single_amount {n : Name} {rs : List Res} (hn : (rs.map (·.name)).Nodup) (r : Res) (hr : r ∈ rs) (hrn : r.name = n) :
    negOf n rs = (if r.weight < 0 then r.weight else 0) ∧ posOf n rs = (if r.weight < 0 then 0 else r.weight) := by
  induction rs with
  | nil => simp at hr
  | cons x rs ih =>
    simp only [List.map_cons, List.nodup_cons] at hn
    simp at hr
    rcases hr with rfl | hr
    · have := amountOf_notMem (n := n) (rs := rs) (by rw [← hrn]; exact hn.1)
      simp only [negOf, posOf, total] at this ⊢
      rw [this.1, this.2.1]
      by_cases hw : r.weight < 0
      · have : ¬ 0 ≤ r.weight := by omega
        simp [hrn, hw, this]
      · have : 0 ≤ r.weight := by omega
        simp [hrn, hw, this]
    · have hx : ¬ x.name = n := by
        intro e; apply hn.1; rw [e, ← hrn]; exact List.mem_map_of_mem hr
      have := ih hn.2 hr
      simp only [negOf, posOf, total, hx, false_and, if_false] at this ⊢
      omega

theorem loop_inv (h : Hierarchy) (base : Name → Int) (es : List Entry) (hes : ∀ e ∈ es, (e.resources.map (·.name)).Nodup)
    (est : Ests) (s : State) (hi : BatchInv h base est s) :
    ∀ n, 0 ≤ (arbitrateLoop h es est s).1.allocated n ∧ (arbitrateLoop h es est s).1.allocated n ≤ maxValue h n := by
  induction es generalizing est s with
  | nil =>
    intro n
    have := hi.range n; have := hi.ren n; have := hi.con n; have := hi.alloc n
    simp only [arbitrateLoop]; omega
  | cons e es ih =>
    simp only [arbitrateLoop]
    have hspec := tryRequests_spec h e.resources (hes e (by simp)) est
    by_cases hall : ∀ r ∈ e.resources, okRes h (est r.name) r
    · obtain ⟨est', he', hv⟩ := hspec.1 hall
      rw [he']
      apply ih (fun x hx => hes x (by simp [hx]))
      refine ⟨hi.range, ?_, ?_, ?_⟩
      · intro n
        have hr := hi.ren n; have hrg := hi.range n
        rw [(hv n).1]
        have := neg_nonpos n e.resources
        by_cases hmem : n ∈ e.resources.map (·.name)
        · simp at hmem
          obtain ⟨r, hr', hrn⟩ := hmem
          have hok := hall r hr'
          have hs := single_amount (hes e (by simp)) r hr' hrn
          unfold okRes at hok
          rw [hrn] at hok
          rw [← hs.1, ← hs.2] at hok
          omega
        · have := amountOf_notMem hmem; omega
      · intro n
        have hr := hi.con n; have hrg := hi.range n
        rw [(hv n).2]
        have := neg_nonpos n e.resources
        by_cases hmem : n ∈ e.resources.map (·.name)
        · simp at hmem
          obtain ⟨r, hr', hrn⟩ := hmem
          have hok := hall r hr'
          have hs := single_amount (hes e (by simp)) r hr' hrn
          unfold okRes at hok
          rw [hrn] at hok
          rw [← hs.1, ← hs.2] at hok
          omega
        · have := amountOf_notMem hmem; omega
      · intro n
        have := hi.alloc n; have := hv n; have := amount_split n e.resources
        simp only [allocate_eq]
        omega
    · rw [hspec.2 hall]
      exact ih (fun x hx => hes x (by simp [hx])) est s hi

theorem entries_names {fuel h cmds free es} (he : partition fuel h cmds = some (free, es)) :
    ∀ e ∈ sortEntries es, (e.resources.map (·.name)).Nodup := by
  intro e hm
  have hm' : e ∈ es := List.mem_mergeSort.mp hm
  obtain ⟨_, _, hr⟩ := (partition_entries he).2.2 e hm'
  exact allResources_names hr

theorem arbitrate_cases {fuel h s cmds s' acc rej} (he : arbitrate fuel h s cmds = some (s', acc, rej)) :
    ∃ free es, partition fuel h cmds = some (free, es) ∧
      s' = (arbitrateLoop h (sortEntries es) (fun n => ⟨s.allocated n, s.allocated n⟩) s).1 ∧
      acc = free ++ (arbitrateLoop h (sortEntries es) (fun n => ⟨s.allocated n, s.allocated n⟩) s).2.1 ∧
      rej = (arbitrateLoop h (sortEntries es) (fun n => ⟨s.allocated n, s.allocated n⟩) s).2.2 := by
  simp only [arbitrate, Option.bind_eq_bind, Option.bind_eq_some_iff, Option.pure_def, Option.some.injEq, Prod.mk.injEq] at he
  obtain ⟨⟨free, es⟩, h1, h2, h3, h4⟩ := he
  exact ⟨free, es, h1, h2.symm, h3.symm, h4.symm⟩

/-! ## C17 -/

/-- C17 for one batch, producers (negative amounts) included: if every resource is within [0, capacity] before
arbitration it is so afterwards. -/
theorem C17_batch_within_capacity (fuel : Nat) (h : Hierarchy) (s s' : State) (b : Batch) (acc rej : List Cmd)
    (hs : ∀ n, 0 ≤ s.allocated n ∧ s.allocated n ≤ capacity h n)
    (he : arbitrate fuel h s b = some (s', acc, rej)) :
    ∀ n, 0 ≤ s'.allocated n ∧ s'.allocated n ≤ capacity h n := by
  obtain ⟨free, es, hp, rfl, _, _⟩ := arbitrate_cases he
  intro n
  rw [← capacity_eq]
  refine loop_inv h s.allocated _ (entries_names hp) _ _ ⟨?_, ?_, ?_, ?_⟩ n
  · intro n; rw [capacity_eq]; exact hs n
  · intro n; have := hs n; simp; omega
  · intro n; have := hs n; rw [capacity_eq]; simp; omega
  · intro n; simp

/-- History invariant when nothing is negative: what the running commands would give back is covered. -/
structure HistInv (h : Hierarchy) (s : State) : Prop where
  bounds : ∀ n, s.allocated n ≤ maxValue h n
  covered : ∀ n, total (fun p => releasable n p.2) s.running ≤ s.allocated n
  nonneg : ∀ p ∈ s.running, ∀ r ∈ p.2, 0 ≤ r.weight
  keys : (s.running.map (·.1)).Nodup

theorem releasable_nonneg (n : Name) (rs : List Res) (h : ∀ r ∈ rs, 0 ≤ r.weight) : 0 ≤ releasable n rs ∧ releasable n rs ≤ amountOf n rs := by
  induction rs with
  | nil => simp [releasable, amountOf, total]
  | cons r rs ih =>
    have h0 := h r (by simp)
    have := ih (fun x hx => h x (by simp [hx]))
    simp only [releasable, amountOf, total] at this ⊢
    by_cases h1 : r.name = n <;> cases h2 : r.release <;> simp [h1] <;> omega

theorem total_nonneg {α} (f : α → Int) (l : List α) (h : ∀ x ∈ l, 0 ≤ f x) : 0 ≤ total f l := by
  induction l with
  | nil => simp [total]
  | cons a l ih =>
    have := h a (by simp); have := ih (fun x hx => h x (by simp [hx]))
    simp only [total]; omega

theorem loop_hist (h : Hierarchy) (es : List Entry) (hes : ∀ e ∈ es, ∀ r ∈ e.resources, 0 ≤ r.weight) (est : Ests) (s : State)
    (hc : ∀ n, total (fun p => releasable n p.2) s.running ≤ s.allocated n)
    (hn : ∀ p ∈ s.running, ∀ r ∈ p.2, 0 ≤ r.weight) (hk : (s.running.map (·.1)).Nodup) :
    let s' := (arbitrateLoop h es est s).1
    (∀ n, total (fun p => releasable n p.2) s'.running ≤ s'.allocated n) ∧
    (∀ p ∈ s'.running, ∀ r ∈ p.2, 0 ≤ r.weight) ∧ (s'.running.map (·.1)).Nodup := by
  induction es generalizing est s with
  | nil => exact ⟨hc, hn, hk⟩
  | cons e es ih =>
    simp only [arbitrateLoop]
    cases tryRequests h e.resources est with
    | none => exact ih (fun x hx => hes x (by simp [hx])) est s hc hn hk
    | some est' =>
      apply ih (fun x hx => hes x (by simp [hx])) est'
      · intro n
        have h1 := releasable_nonneg n e.resources (hes e (by simp))
        have h2 := hc n
        have h3 := total_filter (fun p => releasable n p.2) s.running e.cmd hk
        simp only [setRunning, total, allocate_eq]
        rw [h3]
        cases hl : s.running.lookup e.cmd with
        | none => simp only; omega
        | some rs =>
          have := releasable_nonneg n rs (hn _ (lookup_mem hl))
          simp only; omega
      · intro p hp
        simp only [setRunning, List.mem_cons] at hp
        rcases hp with rfl | hp
        · exact hes e (by simp)
        · exact hn p (List.mem_filter.mp hp).1
      · exact keys_setRunning _ _ _ hk

theorem hist_release (h : Hierarchy) (s : State) (c : Cmd) (hi : HistInv h s) : HistInv h (release s c) := by
  cases hl : s.running.lookup c with
  | none => rw [release_none hl]; exact hi
  | some rs =>
    have hrs := hi.nonneg _ (lookup_mem hl)
    refine ⟨?_, ?_, ?_, ?_⟩
    · intro n
      rw [release_allocated hl]
      have := hi.bounds n; have := releasable_nonneg n rs hrs
      omega
    · intro n
      rw [release_allocated hl, release_running_eq hl, total_filter _ _ _ hi.keys, hl]
      have := hi.covered n
      simp only; omega
    · rw [release_running_eq hl]; intro p hp; exact hi.nonneg p (List.mem_filter.mp hp).1
    · rw [release_running_eq hl]; exact keys_filter _ _ hi.keys

/-- C17. Over every history of submissions and releases in which no amount is negative, each resource stays within
[0, capacity]. Full statement: also with negative amounts; that is false, see
`C17_history_with_producer_overallocates`. -/
theorem C17_history_within_capacity_partial (fuel : Nat) (h : Hierarchy) (ops : List Op) (s : State)
    (hnn : NonNegative h ops) (hrun : run fuel h State.init ops = some s) :
    ∀ n, 0 ≤ s.allocated n ∧ s.allocated n ≤ capacity h n := by
  suffices H : ∀ (ops : List Op) (s₀ : State), NonNegative h ops → HistInv h s₀ → run fuel h s₀ ops = some s → HistInv h s by
    have hmax : ∀ n, 0 ≤ maxValue h n := by
      intro n
      unfold maxValue
      cases hf : h.find n with
      | none => exact Int.natCast_nonneg _
      | some node => exact (hnn.1 n node hf).1
    have hi := H ops State.init hnn ⟨fun n => hmax n, fun n => by simp [State.init, total],
      by simp [State.init], by simp [State.init]⟩ hrun
    intro n
    have h1 := hi.bounds n
    have h2 := hi.covered n
    have h3 := total_nonneg (fun p => releasable n p.2) s.running (fun p hp => (releasable_nonneg n p.2 (hi.nonneg p hp)).1)
    rw [← capacity_eq]; omega
  intro ops
  induction ops with
  | nil => intro s₀ _ hi he; cases he; exact hi
  | cons op ops ih =>
    intro s₀ hn hi he
    have hn' : NonNegative h ops := ⟨hn.1, fun b hb => hn.2 b (by simp [hb])⟩
    cases op with
    | release c => exact ih _ hn' (hist_release h s₀ c hi) he
    | submit b =>
      simp only [run, Option.bind_eq_bind, Option.bind_eq_some_iff] at he
      obtain ⟨⟨s1, acc, rej⟩, h1, he⟩ := he
      refine ih s1 hn' ?_ he
      have hz : ∀ n, 0 ≤ s₀.allocated n := by
        intro n
        have h2 := hi.covered n
        have h3 := total_nonneg (fun p => releasable n p.2) s₀.running (fun p hp => (releasable_nonneg n p.2 (hi.nonneg p hp)).1)
        omega
      have hb := C17_batch_within_capacity fuel h s₀ s1 b acc rej (fun n => ⟨hz n, by rw [← capacity_eq]; exact hi.bounds n⟩) h1
      obtain ⟨free, es, hp, rfl, _, _⟩ := arbitrate_cases h1
      have hes : ∀ e ∈ sortEntries es, ∀ r ∈ e.resources, 0 ≤ r.weight := by
        intro e hm
        have hm' : e ∈ es := List.mem_mergeSort.mp hm
        obtain ⟨reqs, hin, hr⟩ := (partition_entries hp).2.2 e hm'
        exact allResources_all (fun r => 0 ≤ r.weight) (fun n node hf c hc _ => (hn.1 n node hf).2 c hc)
          (fun r hr => hn.2 b (by simp) _ hin r hr) hr
      obtain ⟨a1, a2, a3⟩ := loop_hist h (sortEntries es) hes _ s₀ hi.covered hi.nonneg hi.keys
      exact ⟨fun n => by rw [capacity_eq]; exact (hb n).2, a1, a2, a3⟩

/-- One resource "power" of capacity 1 (in model units). -/
def demoH : Hierarchy := [("power", ⟨[], 1⟩)]
def demoReq (w : Int) : List Request := [⟨"power", w, 10, true⟩]

/-- C17 is false with negative amounts: a consumer, a producer, another consumer, then the producer's command ends:
two units are allocated of a resource of capacity one. -/
theorem C17_history_with_producer_overallocates :
    ∃ s, run 2 demoH State.init [.submit [(1, demoReq 1)], .submit [(2, demoReq (-1))], .submit [(3, demoReq 1)], .release 2] = some s ∧
      s.allocated "power" = 2 ∧ capacity demoH "power" = 1 := by
  refine ⟨_, rfl, by decide +kernel, by decide +kernel⟩

example : NonNegative demoH [.submit [(1, demoReq 1), (2, demoReq 1)], .release 1] := by
  refine ⟨?_, ?_⟩
  · intro n node hf
    simp only [Hierarchy.find, demoH, List.lookup] at hf
    split at hf
    · cases hf; simp
    · cases hf
  · intro b hb
    simp at hb; subst hb
    simp [demoReq]

/-! ## C18 -/

/-- C18. Every submitted command is decided exactly once: accepted and rejected commands together are a rearrangement
of the submitted ones. Commands without requests are all accepted, first and in order. -/
theorem C18_each_decided_once (fuel : Nat) (h : Hierarchy) (s s' : State) (b : Batch) (acc rej : List Cmd)
    (he : arbitrate fuel h s b = some (s', acc, rej)) :
    (acc ++ rej).Perm (b.map (·.1)) ∧
    (b.filter (fun p => p.2.isEmpty)).map (·.1) <+: acc := by
  obtain ⟨free, es, hp, _, rfl, rfl⟩ := arbitrate_cases he
  obtain ⟨hf, hes, _⟩ := partition_entries hp
  refine ⟨?_, ⟨_, by rw [← hf]⟩⟩
  rw [List.append_assoc]
  refine (List.Perm.append_left free (loop_cmds h (sortEntries es) _ s)).trans ?_
  have h1 : ((sortEntries es).map (·.cmd)).Perm (es.map (·.cmd)) := (List.mergeSort_perm es _).map _
  refine (List.Perm.append_left free h1).trans ?_
  have h2 : es.map (·.cmd) = (b.filter (fun p => !p.2.isEmpty)).map (·.1) := by
    have := congrArg (List.map (·.1)) hes
    simpa [List.map_map, Function.comp_def] using this
  rw [hf, h2, ← List.map_append]
  exact (List.filter_append_perm (fun p : Cmd × List Request => p.2.isEmpty) b).map _

example : (arbitrate 2 demoH State.init [(7, []), (1, demoReq 1), (2, demoReq 1)]).map (·.2) = some ([7, 1], [2]) := by
  simp [arbitrate, partition, allResources, addRequest, childResources, demoReq, demoH, Hierarchy.find, sortEntries,
    List.mergeSort, setInsert, arbitrateLoop, tryRequests, maxValue, State.init, List.MergeSort.Internal.splitInTwo]

/-! ## C19 -/

/-- The request `r` fits on top of what was taken by `earlier` accepted commands: counting only consumption, and
counting only production, the level stays within [0, capacity]. -/
def Fits (h : Hierarchy) (base : Name → Int) (earlier : List (List Res)) (rs : List Res) : Prop :=
  ∀ r ∈ rs,
    let low := base r.name + total (negOf r.name) earlier + (if r.weight < 0 then r.weight else 0)
    let high := base r.name + total (posOf r.name) earlier + (if r.weight < 0 then 0 else r.weight)
    0 ≤ low ∧ low ≤ capacity h r.name ∧ 0 ≤ high ∧ high ≤ capacity h r.name

theorem loop_none {h e es est s} (ht : tryRequests h e.resources est = none) :
    (arbitrateLoop h (e :: es) est s).2.1 = (arbitrateLoop h es est s).2.1 := by
  simp only [arbitrateLoop, ht]

theorem loop_some {h e es est s est'} (ht : tryRequests h e.resources est = some est') :
    (arbitrateLoop h (e :: es) est s).2.1 = e.cmd :: (arbitrateLoop h es est'
      { allocated := allocate e.resources s.allocated, running := setRunning s.running e.cmd e.resources }).2.1 := by
  simp only [arbitrateLoop, ht]

theorem loop_greedy (h : Hierarchy) (base : Name → Int) (es : List Entry) (hes : ∀ e ∈ es, (e.resources.map (·.name)).Nodup)
    (hd : (es.map (·.cmd)).Nodup) :
    ∀ (earlier : List (List Res)) (est : Ests) (s : State),
    (∀ n, (est n).renewable = base n + total (negOf n) earlier ∧ (est n).consumable = base n + total (posOf n) earlier) →
    let acc := (arbitrateLoop h es est s).2.1
    (∀ c ∈ acc, c ∈ es.map (·.cmd)) ∧
    ∀ pre e post, es = pre ++ e :: post →
      (e.cmd ∈ acc ↔ Fits h base (earlier ++ (pre.filter (fun x => x.cmd ∈ acc)).map (·.resources)) e.resources) := by
  induction es with
  | nil => intro earlier est s _; simp [arbitrateLoop]
  | cons e₀ es ih =>
    intro earlier est s hest
    simp only [List.map_cons, List.nodup_cons] at hd
    have ih := ih (fun x hx => hes x (by simp [hx])) hd.2
    have hspec := tryRequests_spec h e₀.resources (hes e₀ (by simp)) est
    have hfit : (∀ r ∈ e₀.resources, okRes h (est r.name) r) ↔ Fits h base earlier e₀.resources := by
      constructor <;> intro hh r hr <;> have := hh r hr <;>
        simp only [okRes, (hest r.name).1, (hest r.name).2, ← capacity_eq] at this ⊢ <;> exact this
    by_cases hall : ∀ r ∈ e₀.resources, okRes h (est r.name) r
    · obtain ⟨est', he', hv⟩ := hspec.1 hall
      simp only [loop_some he']
      have hest' : ∀ n, (est' n).renewable = base n + total (negOf n) (earlier ++ [e₀.resources]) ∧
          (est' n).consumable = base n + total (posOf n) (earlier ++ [e₀.resources]) := by
        intro n
        have a := hest n; have b := hv n
        simp only [total_append, total]
        omega
      obtain ⟨i1, i2⟩ := ih (earlier ++ [e₀.resources]) est' _ hest'
      refine ⟨?_, ?_⟩
      · intro c hc
        simp only [List.mem_cons, List.map_cons] at hc ⊢
        rcases hc with rfl | hc
        · exact .inl rfl
        · exact .inr (i1 c hc)
      · intro pre e post hsplit
        cases pre with
        | nil =>
          simp only [List.nil_append, List.cons.injEq] at hsplit
          obtain ⟨rfl, rfl⟩ := hsplit
          simp only [List.mem_cons, true_or, List.filter_nil, List.map_nil, List.append_nil, true_iff]
          exact hfit.mp hall
        | cons p pre =>
          simp only [List.cons_append, List.cons.injEq] at hsplit
          obtain ⟨rfl, rfl⟩ := hsplit
          have hne : e.cmd ≠ e₀.cmd := by
            intro heq; apply hd.1; rw [← heq]; simp
          have hpre : ∀ x ∈ pre, x.cmd ≠ e₀.cmd := by
            intro x hx heq; apply hd.1; rw [← heq]; simp; exact .inl ⟨x, hx, rfl⟩
          have := i2 pre e post rfl
          have hfil : ∀ (A : List Cmd), pre.filter (fun x => x.cmd ∈ e₀.cmd :: A) = pre.filter (fun x => x.cmd ∈ A) := by
            intro A
            apply List.filter_congr
            intro x hx
            simp [hpre x hx]
          simp only [List.mem_cons, hne, false_or, List.filter_cons, true_or, decide_true, if_true, List.map_cons]
          have hf2 := hfil (arbitrateLoop h (pre ++ e :: post) est' { allocated := allocate e₀.resources s.allocated, running := setRunning s.running e₀.cmd e₀.resources }).2.1
          simp only [List.mem_cons] at hf2
          rw [hf2, this, List.append_assoc]
          rfl
    · simp only [loop_none (hspec.2 hall)]
      obtain ⟨i1, i2⟩ := ih earlier est s hest
      refine ⟨?_, ?_⟩
      · intro c hc
        simp only [List.mem_cons, List.map_cons]
        exact .inr (i1 c hc)
      · have hnot : e₀.cmd ∉ (arbitrateLoop h es est s).2.1 := fun hm => hd.1 (i1 _ hm)
        intro pre e post hsplit
        cases pre with
        | nil =>
          simp only [List.nil_append, List.cons.injEq] at hsplit
          obtain ⟨rfl, rfl⟩ := hsplit
          simp only [List.filter_nil, List.map_nil, List.append_nil]
          exact ⟨fun hm => absurd hm hnot, fun hF => absurd (hfit.mpr hF) hall⟩
        | cons p pre =>
          simp only [List.cons_append, List.cons.injEq] at hsplit
          obtain ⟨rfl, rfl⟩ := hsplit
          have := i2 pre e post rfl
          simp only [List.filter_cons, hnot, decide_false, Bool.false_eq_true, if_false]
          exact this

/-- The order in which commands are considered: the entry `a` precedes `b` if its priority number is smaller, or equal
and it was submitted earlier. -/
def Precedes (es : List Entry) (a b : Entry) : Prop :=
  a.priority < b.priority ∨ (a.priority = b.priority ∧ [a, b].Sublist es)

theorem sorted_order (es : List Entry) (hn : es.Nodup) : (sortEntries es).Pairwise (Precedes es) := by
  have htr : ∀ a b c : Entry, (decide (a.priority ≤ b.priority)) = true → decide (b.priority ≤ c.priority) = true → decide (a.priority ≤ c.priority) = true := by
    intro a b c; simp; omega
  have htot : ∀ a b : Entry, (decide (a.priority ≤ b.priority) || decide (b.priority ≤ a.priority)) = true := by
    intro a b; simp; omega
  have hs := List.pairwise_mergeSort htr htot es
  have hnd : (sortEntries es).Nodup := (List.mergeSort_perm es _).nodup_iff.mpr hn
  have key : ∀ a b : Entry, [a, b].Sublist (sortEntries es) → a.priority ≤ b.priority → Precedes es a b := by
    intro a b hsub hle
    by_cases hlt : a.priority < b.priority
    · exact .inl hlt
    · right
      refine ⟨by omega, ?_⟩
      have ha : a ∈ es := List.mem_mergeSort.mp (hsub.subset (by simp))
      have hb : b ∈ es := List.mem_mergeSort.mp (hsub.subset (by simp))
      have hab : a ≠ b := by
        intro e; subst e
        have := hnd.sublist hsub
        simp at this
      -- if b came first, stability would put b first
      have htwo : [a, b].Sublist es ∨ [b, a].Sublist es := by
        clear hs hnd hsub
        induction es with
        | nil => simp at ha
        | cons x xs ih =>
          simp only [List.nodup_cons] at hn
          simp only [List.mem_cons] at ha hb
          rcases ha with rfl | ha
          · rcases hb with rfl | hb
            · exact absurd rfl hab
            · left; exact List.Sublist.cons_cons _ (List.singleton_sublist.mpr hb)
          · rcases hb with rfl | hb
            · right; exact List.Sublist.cons_cons _ (List.singleton_sublist.mpr ha)
            · rcases ih hn.2 ha hb with h | h
              · left; exact h.cons _
              · right; exact h.cons _
      rcases htwo with h | h
      · exact h
      · have h2 : [b, a].Sublist (sortEntries es) := List.pair_sublist_mergeSort htr htot (by simp; omega) h
        -- both orders in a duplicate-free list
        exfalso
        have : ∀ (l : List Entry), l.Nodup → [a, b].Sublist l → [b, a].Sublist l → False := by
          intro l
          induction l with
          | nil => intro _ h _; cases h
          | cons x xs ih =>
            intro hn h1 h2
            simp only [List.nodup_cons] at hn
            cases h1 with
            | cons _ h1 =>
              cases h2 with
              | cons _ h2 => exact ih hn.2 h1 h2
              | cons_cons _ h2 => exact hn.1 (h1.subset (by simp))
            | cons_cons _ h1 =>
              cases h2 with
              | cons _ h2 => exact hn.1 (h2.subset (by simp))
              | cons_cons _ h2 => exact hab rfl
        exact this _ hnd hsub h2
  have hpw : ∀ l : List Entry, l.Sublist (sortEntries es) → l.Pairwise (fun a b => decide (a.priority ≤ b.priority) = true) → l.Pairwise (Precedes es) := by
    intro l
    induction l with
    | nil => intro _ _; exact List.Pairwise.nil
    | cons a l ih =>
      intro hsub hp
      rw [List.pairwise_cons] at hp ⊢
      refine ⟨?_, ih ((List.sublist_cons_self a l).trans hsub) hp.2⟩
      intro b hb
      refine key a b ((List.Sublist.cons_cons a (List.singleton_sublist.mpr hb)).trans hsub) ?_
      simpa using hp.1 b hb
  exact hpw _ (List.Sublist.refl _) hs

theorem nodup_of_map {α β} {f : α → β} {l : List α} (h : (l.map f).Nodup) : l.Nodup := by
  induction l with
  | nil => exact List.nodup_nil
  | cons a l ih =>
    simp only [List.map_cons, List.nodup_cons] at h ⊢
    exact ⟨fun hm => h.1 (List.mem_map_of_mem hm), ih h.2⟩

/-- C19. Arbitration is greedy in priority order: there is an ordering of the submitted commands that have requests, by
priority number and then by submission, such that a command is accepted exactly when its needs fit
on top of the already allocated amounts and the needs of the accepted commands before it. So a command is
never refused because of a later one, and never refused although it fits. -/
theorem C19_greedy (fuel : Nat) (h : Hierarchy) (s s' : State) (b : Batch) (acc rej : List Cmd)
    (hd : (b.map (·.1)).Nodup) (he : arbitrate fuel h s b = some (s', acc, rej)) :
    ∃ es order : List Entry,
      es.map (fun e => (e.cmd, e.priority)) =
        (b.filter (fun p => !p.2.isEmpty)).map (fun p => (p.1, (p.2.head?.map (·.priority)).getD 0)) ∧
      (∀ e ∈ es, ∃ reqs, (e.cmd, reqs) ∈ b ∧ allResources fuel h reqs = some e.resources) ∧
      order.Perm es ∧ order.Pairwise (Precedes es) ∧
      ∀ pre e post, order = pre ++ e :: post →
        (e.cmd ∈ acc ↔ Fits h s.allocated ((pre.filter (fun x => x.cmd ∈ acc)).map (·.resources)) e.resources) := by
  obtain ⟨free, es, hp, _, rfl, rfl⟩ := arbitrate_cases he
  obtain ⟨hf, hes, hres⟩ := partition_entries hp
  have hcmds : es.map (·.cmd) = (b.filter (fun p => !p.2.isEmpty)).map (·.1) := by
    have := congrArg (List.map (·.1)) hes
    simpa [List.map_map, Function.comp_def] using this
  have hnd : (es.map (·.cmd)).Nodup := by
    rw [hcmds]; exact hd.sublist (List.Sublist.map _ List.filter_sublist)
  have hnd' : ((sortEntries es).map (·.cmd)).Nodup := ((List.mergeSort_perm es _).map _).nodup_iff.mpr hnd
  have hfree : ∀ e ∈ es, e.cmd ∉ free := by
    intro e hm hin
    obtain ⟨reqs, hreq, _⟩ := hres e hm
    have h1 : e.cmd ∈ (b.filter (fun p => !p.2.isEmpty)).map (·.1) := hcmds ▸ List.mem_map_of_mem hm
    rw [hf] at hin
    simp only [List.mem_map, List.mem_filter] at h1 hin
    obtain ⟨p, ⟨hp1, hp2⟩, hp3⟩ := h1
    obtain ⟨q, ⟨hq1, hq2⟩, hq3⟩ := hin
    have : p = q := by
      have hinj : ∀ (l : List (Cmd × List Request)), (l.map (·.1)).Nodup → ∀ p ∈ l, ∀ q ∈ l, p.1 = q.1 → p = q := by
        intro l
        induction l with
        | nil => intro _ p hp; simp at hp
        | cons a l ih =>
          intro hn p hp q hq heq
          simp only [List.map_cons, List.nodup_cons] at hn
          simp at hp hq
          rcases hp with rfl | hp <;> rcases hq with rfl | hq
          · rfl
          · exact absurd (heq ▸ List.mem_map_of_mem hq) hn.1
          · exact absurd (heq ▸ List.mem_map_of_mem hp) hn.1
          · exact ih hn.2 p hp q hq heq
      exact hinj b hd p hp1 q hq1 (hp3.trans hq3.symm)
    subst this
    simp [hq2] at hp2
  refine ⟨es, sortEntries es, hes, hres, List.mergeSort_perm es _, sorted_order es (nodup_of_map hnd), ?_⟩
  intro pre e post hsplit
  have hg := (loop_greedy h s.allocated (sortEntries es) (entries_names hp) hnd' [] (fun n => ⟨s.allocated n, s.allocated n⟩) s
    (by intro n; simp [total])).2 pre e post hsplit
  have hmem : ∀ x ∈ sortEntries es, (x.cmd ∈ free ++ (arbitrateLoop h (sortEntries es) (fun n => ⟨s.allocated n, s.allocated n⟩) s).2.1 ↔
      x.cmd ∈ (arbitrateLoop h (sortEntries es) (fun n => ⟨s.allocated n, s.allocated n⟩) s).2.1) := by
    intro x hx
    have := hfree x (List.mem_mergeSort.mp hx)
    simp [this]
  rw [hmem e (by rw [hsplit]; simp)]
  have hfil : pre.filter (fun x => x.cmd ∈ free ++ (arbitrateLoop h (sortEntries es) (fun n => ⟨s.allocated n, s.allocated n⟩) s).2.1) =
      pre.filter (fun x => x.cmd ∈ (arbitrateLoop h (sortEntries es) (fun n => ⟨s.allocated n, s.allocated n⟩) s).2.1) := by
    apply List.filter_congr
    intro x hx
    simp only [decide_eq_decide]
    exact hmem x (by rw [hsplit]; simp [hx])
  rw [hfil]
  simpa using hg

/-! ## C20 -/

/-- Everything the arbiter charges for a command with these requests (requested resources and their descendants). -/
def needs (fuel : Nat) (h : Hierarchy) (reqs : List Request) : List Res := (allResources fuel h reqs).getD []

/-- Amount of resource `n` charged for the requests. -/
def charged (fuel : Nat) (h : Hierarchy) (n : Name) (reqs : List Request) : Int :=
  ((needs fuel h reqs).map (fun r => if r.name = n then r.weight else 0)).sum

/-- The part of it that is flagged as not to be given back. -/
def kept (fuel : Nat) (h : Hierarchy) (n : Name) (reqs : List Request) : Int :=
  ((needs fuel h reqs).map (fun r => if r.name = n ∧ r.release = false then r.weight else 0)).sum

/-- Reachable arbiter states, with a ledger: the accepted commands that have not been released, and the requests of
the released ones. A command is not submitted again while it is outstanding. -/
inductive Ledger (fuel : Nat) (h : Hierarchy) : State → Batch → List (List Request) → Prop
  | init : Ledger fuel h State.init [] []
  | submit {s s' out gone b acc rej} : Ledger fuel h s out gone → (b.map (·.1)).Nodup →
      (∀ p ∈ b, p.1 ∉ out.map (·.1)) → arbitrate fuel h s b = some (s', acc, rej) →
      Ledger fuel h s' (out ++ b.filter (fun p => p.1 ∈ acc)) gone
  | release {s out gone} (c : Cmd) : Ledger fuel h s out gone →
      Ledger fuel h (release s c) (out.filter (fun p => p.1 != c)) (gone ++ (out.filter (fun p => p.1 == c)).map (·.2))

theorem total_eq_sum {α} (f : α → Int) (l : List α) : total f l = (l.map f).sum := by
  induction l with
  | nil => rfl
  | cons a l ih => simp [total, ih]

theorem loop_running (h : Hierarchy) (es : List Entry) (hd : (es.map (·.cmd)).Nodup) (est : Ests) (s : State) :
    (∀ e ∈ es, e.cmd ∈ (arbitrateLoop h es est s).2.1 →
      (arbitrateLoop h es est s).1.running.lookup e.cmd = some e.resources) ∧
    (∀ c, c ∉ (arbitrateLoop h es est s).2.1 → (arbitrateLoop h es est s).1.running.lookup c = s.running.lookup c) ∧
    (∀ c, c ∈ (arbitrateLoop h es est s).2.1 → c ∈ es.map (·.cmd)) ∧
    (∀ n, (arbitrateLoop h es est s).1.allocated n =
      s.allocated n + total (fun e => amountOf n e.resources) (es.filter (fun e => e.cmd ∈ (arbitrateLoop h es est s).2.1))) := by
  induction es generalizing est s with
  | nil => simp [arbitrateLoop, total]
  | cons e₀ es ih =>
    simp only [List.map_cons, List.nodup_cons] at hd
    cases ht : tryRequests h e₀.resources est with
    | none =>
      obtain ⟨i1, i2, i3, i4⟩ := ih hd.2 est s
      have h1 := loop_none (es := es) (s := s) ht
      have h2 : (arbitrateLoop h (e₀ :: es) est s).1 = (arbitrateLoop h es est s).1 := by simp only [arbitrateLoop, ht]
      have hnot : e₀.cmd ∉ (arbitrateLoop h es est s).2.1 := fun hm => hd.1 (i3 _ hm)
      simp only [h1, h2]
      refine ⟨?_, i2, fun c hc => by simpa using .inr (by simpa using i3 c hc), ?_⟩
      · intro e he hm
        simp only [List.mem_cons] at he
        rcases he with rfl | he
        · exact absurd hm hnot
        · exact i1 e he hm
      · intro n; rw [i4 n]; simp only [List.filter_cons, hnot, decide_false, Bool.false_eq_true, if_false]
    | some est' =>
      have h1 := loop_some (es := es) (s := s) ht
      have h2 : (arbitrateLoop h (e₀ :: es) est s).1 = (arbitrateLoop h es est'
        { allocated := allocate e₀.resources s.allocated, running := setRunning s.running e₀.cmd e₀.resources }).1 := by
        simp only [arbitrateLoop, ht]
      simp only [h1, h2]
      obtain ⟨i1, i2, i3, i4⟩ := ih hd.2 est' { allocated := allocate e₀.resources s.allocated, running := setRunning s.running e₀.cmd e₀.resources }
      have hnot : e₀.cmd ∉ (arbitrateLoop h es est' { allocated := allocate e₀.resources s.allocated, running := setRunning s.running e₀.cmd e₀.resources }).2.1 := fun hm => hd.1 (i3 _ hm)
      refine ⟨?_, ?_, ?_, ?_⟩
      · intro e he hm
        simp only [List.mem_cons] at he hm
        rcases he with rfl | he
        · rw [i2 _ hnot]; exact lookup_setRunning_self _ _ _
        · have hne : e.cmd ≠ e₀.cmd := fun heq => hd.1 (heq ▸ List.mem_map_of_mem he)
          exact i1 e he (hm.resolve_left hne)
      · intro c hc
        simp only [List.mem_cons, not_or] at hc
        rw [i2 c hc.2]; exact lookup_setRunning_ne _ _ _ _ hc.1
      · intro c hc
        simp only [List.mem_cons, List.map_cons] at hc ⊢
        exact hc.imp id (i3 c)
      · intro n
        rw [i4 n]
        simp only [allocate_eq, List.filter_cons, List.mem_cons, true_or, decide_true, if_true, total]
        have : es.filter (fun e => e.cmd ∈ e₀.cmd :: (arbitrateLoop h es est' { allocated := allocate e₀.resources s.allocated, running := setRunning s.running e₀.cmd e₀.resources }).2.1) =
            es.filter (fun e => e.cmd ∈ (arbitrateLoop h es est' { allocated := allocate e₀.resources s.allocated, running := setRunning s.running e₀.cmd e₀.resources }).2.1) := by
          apply List.filter_congr
          intro x hx
          have : x.cmd ≠ e₀.cmd := fun heq => hd.1 (heq ▸ List.mem_map_of_mem hx)
          simp [this]
        simp only [List.mem_cons] at this
        rw [this]; omega

theorem partition_needs {fuel h cmds free es} (he : partition fuel h cmds = some (free, es)) :
    es.map (fun e => (e.cmd, e.resources)) = (cmds.filter (fun p => !p.2.isEmpty)).map (fun p => (p.1, needs fuel h p.2)) := by
  induction cmds generalizing free es with
  | nil => cases he; simp
  | cons p rest ih =>
    obtain ⟨c, reqs⟩ := p
    simp only [partition, Option.bind_eq_bind, Option.bind_eq_some_iff] at he
    obtain ⟨⟨f', es'⟩, h1, he⟩ := he
    cases reqs with
    | nil =>
      simp at he
      obtain ⟨_, rfl⟩ := he
      simpa using ih h1
    | cons r reqs =>
      simp only [Option.bind_eq_some_iff, Option.pure_def, Option.some.injEq, Prod.mk.injEq] at he
      obtain ⟨rs, hrs, _, rfl⟩ := he
      simp [ih h1, needs, hrs]

theorem total_perm {α} (f : α → Int) {a b : List α} (h : a.Perm b) : total f a = total f b := by
  induction h with
  | nil => rfl
  | cons x _ ih => simp only [total, ih]
  | swap x y l => simp only [total]; omega
  | trans _ _ i1 i2 => rw [i1, i2]

theorem charged_eq (fuel h n reqs) : charged fuel h n reqs = amountOf n (needs fuel h reqs) := by
  unfold charged amountOf; rw [total_eq_sum]

theorem kept_eq (fuel h n reqs) : kept fuel h n reqs = amountOf n (needs fuel h reqs) - releasable n (needs fuel h reqs) := by
  unfold kept amountOf releasable; rw [← total_eq_sum]
  generalize needs fuel h reqs = rs
  induction rs with
  | nil => simp [total]
  | cons r rs ih =>
    simp only [total, ih]
    by_cases h1 : r.name = n <;> cases h2 : r.release <;> simp [h1] <;> omega

theorem needs_nil (fuel h) : needs fuel h [] = [] := rfl

/-- Facts about one arbitration, in terms of the submitted batch. -/
theorem arbitrate_facts {fuel h s b s' acc rej} (hd : (b.map (·.1)).Nodup) (he : arbitrate fuel h s b = some (s', acc, rej)) :
    (∀ n, s'.allocated n = s.allocated n + total (fun p => amountOf n (needs fuel h p.2)) (b.filter (fun p => p.1 ∈ acc))) ∧
    (∀ p ∈ b, p.1 ∈ acc → p.2 ≠ [] → s'.running.lookup p.1 = some (needs fuel h p.2)) ∧
    (∀ p ∈ b, p.1 ∈ acc → p.2 = [] → s'.running.lookup p.1 = s.running.lookup p.1) ∧
    (∀ c, c ∉ acc → s'.running.lookup c = s.running.lookup c) ∧ (∀ c ∈ acc, c ∈ b.map (·.1)) := by
  have hperm := (C18_each_decided_once fuel h s s' b acc rej he).1
  have hin : ∀ c ∈ acc, c ∈ b.map (·.1) := fun c hc => hperm.subset (by simp [hc])
  obtain ⟨free, es, hp, rfl, rfl, rfl⟩ := arbitrate_cases he
  have hf := (partition_entries hp).1
  have hn := partition_needs hp
  have hcmds : es.map (·.cmd) = (b.filter (fun p => !p.2.isEmpty)).map (·.1) := by
    have := congrArg (List.map (·.1)) hn
    simpa [List.map_map, Function.comp_def] using this
  have hnd : (es.map (·.cmd)).Nodup := by
    rw [hcmds]; exact hd.sublist (List.Sublist.map _ List.filter_sublist)
  have hnd' : ((sortEntries es).map (·.cmd)).Nodup := ((List.mergeSort_perm es _).map _).nodup_iff.mpr hnd
  obtain ⟨i1, i2, i3, i4⟩ := loop_running h (sortEntries es) hnd' (fun n => ⟨s.allocated n, s.allocated n⟩) s
  generalize hA : (arbitrateLoop h (sortEntries es) (fun n => ⟨s.allocated n, s.allocated n⟩) s).2.1 = A at *
  generalize hS : (arbitrateLoop h (sortEntries es) (fun n => ⟨s.allocated n, s.allocated n⟩) s).1 = S at *
  -- unique keys
  have hinj : ∀ p ∈ b, ∀ q ∈ b, p.1 = q.1 → p = q := by
    clear * - hd
    induction b with
    | nil => intro p hp; simp at hp
    | cons a l ih =>
      intro p hp q hq heq
      simp only [List.map_cons, List.nodup_cons] at hd
      simp only [List.mem_cons] at hp hq
      rcases hp with rfl | hp <;> rcases hq with rfl | hq
      · rfl
      · exact absurd (heq ▸ List.mem_map_of_mem hq) hd.1
      · exact absurd (heq ▸ List.mem_map_of_mem hp) hd.1
      · exact ih hd.2 p hp q hq heq
  have hA3 : ∀ c ∈ A, c ∈ (b.filter (fun p => !p.2.isEmpty)).map (·.1) := by
    intro c hc
    have := i3 c hc
    rw [← hcmds]
    exact ((List.mergeSort_perm es _).map _).subset this
  have hfree : ∀ p ∈ b, p.2 ≠ [] → p.1 ∉ free := by
    intro p hp hne hin'
    rw [hf] at hin'
    simp only [List.mem_map, List.mem_filter] at hin'
    obtain ⟨q, ⟨hq, hqe⟩, hpq⟩ := hin'
    have := hinj p hp q hq hpq.symm
    subst this
    simp at hqe; exact hne hqe
  have hAe : ∀ p ∈ b, p.2 = [] → p.1 ∉ A := by
    intro p hp he hin'
    have := hA3 _ hin'
    simp only [List.mem_map, List.mem_filter] at this
    obtain ⟨q, ⟨hq, hqe⟩, hpq⟩ := this
    have := hinj p hp q hq hpq.symm
    subst this
    simp [he] at hqe
  refine ⟨?_, ?_, ?_, ?_, hin⟩
  · intro n
    rw [i4 n]
    congr 1
    have e1 : total (fun e => amountOf n e.resources) ((sortEntries es).filter (fun e => e.cmd ∈ A)) =
        total (fun e => amountOf n e.resources) (es.filter (fun e => e.cmd ∈ A)) :=
      total_perm _ ((List.mergeSort_perm es _).filter _)
    rw [e1]
    have e2 : total (fun e => amountOf n e.resources) (es.filter (fun e => e.cmd ∈ A)) =
        total (fun q : Cmd × List Res => amountOf n q.2) ((es.map (fun e => (e.cmd, e.resources))).filter (fun q => q.1 ∈ A)) := by
      clear * -
      induction es with
      | nil => rfl
      | cons e es ih =>
        by_cases hm : e.cmd ∈ A <;> simp [hm, total, ih]
    rw [e2, hn]
    clear e1 e2 i1 i2 i3 i4 hp hn hcmds hnd hnd' hA hS he hin hA3 hperm hf hinj hd
    have hsub : ∀ p ∈ b, p.2 ≠ [] → p.1 ∉ free := hfree
    clear hAe
    revert hsub
    induction b with
    | nil => intro _; rfl
    | cons p b ih =>
      intro hsub
      have ih := ih (fun q hq => hsub q (by simp [hq])) (fun q hq => hsub q (by simp [hq]))
      obtain ⟨c, reqs⟩ := p
      cases reqs with
      | nil =>
        simp only [List.filter_cons, List.isEmpty_nil, Bool.not_true, Bool.false_eq_true, if_false]
        rw [ih]
        split <;> simp [total, needs_nil, amountOf]
      | cons r reqs =>
        have := hsub (c, r :: reqs) (by simp) (by simp)
        simp only [List.filter_cons, List.isEmpty_cons, Bool.not_false, if_true, List.map_cons, List.mem_append, this, false_or]
        simp only [List.mem_append] at ih
        by_cases hm : c ∈ A
        · simp only [hm, decide_true, if_true, total, ih]
        · simp only [hm, decide_false, Bool.false_eq_true, if_false, ih]
  · intro p hp hacc hne
    have hpA : p.1 ∈ A := (List.mem_append.mp hacc).resolve_left (hfree p hp hne)
    have : (p.1, needs fuel h p.2) ∈ es.map (fun e => (e.cmd, e.resources)) := by
      rw [hn]
      exact List.mem_map_of_mem (f := fun p : Cmd × List Request => (p.1, needs fuel h p.2)) (List.mem_filter.mpr ⟨hp, by simpa using hne⟩)
    simp only [List.mem_map, Prod.mk.injEq] at this
    obtain ⟨e, hem, he1, he2⟩ := this
    have := i1 e (List.mem_mergeSort.mpr hem) (he1 ▸ hpA)
    rw [he1, he2] at this
    exact this
  · intro p hp _ he
    exact i2 _ (hAe p hp he)
  · intro c hc
    exact i2 c (fun hm => hc (List.mem_append.mpr (.inr hm)))

/-- What the ledger says about the state. -/
structure LedgerInv (fuel : Nat) (h : Hierarchy) (s : State) (out : Batch) (gone : List (List Request)) : Prop where
  keys : (out.map (·.1)).Nodup
  present : ∀ p ∈ out, p.2 ≠ [] → s.running.lookup p.1 = some (needs fuel h p.2)
  absent : ∀ c, (∀ p ∈ out, p.1 = c → p.2 = []) → s.running.lookup c = none
  amount : ∀ n, s.allocated n = total (fun p => amountOf n (needs fuel h p.2)) out + total (fun q => kept fuel h n q) gone

theorem ledger_inv {fuel h s out gone} (hl : Ledger fuel h s out gone) : LedgerInv fuel h s out gone := by
  induction hl with
  | init => exact ⟨by simp, by simp, fun c _ => rfl, fun n => rfl⟩
  | @submit s s' out gone b acc rej _ hd hfresh he ih =>
    obtain ⟨f1, f2, f3, f4, f5⟩ := arbitrate_facts hd he
    have hout : ∀ p ∈ out, p.1 ∉ acc := by
      intro p hp hacc
      have := f5 _ hacc
      simp only [List.mem_map] at this
      obtain ⟨q, hq, hqp⟩ := this
      exact hfresh q hq (hqp ▸ List.mem_map_of_mem hp)
    refine ⟨?_, ?_, ?_, ?_⟩
    · rw [List.map_append, List.nodup_append]
      refine ⟨ih.keys, hd.sublist (List.Sublist.map _ List.filter_sublist), ?_⟩
      intro a ha c hc heq
      subst heq
      simp only [List.mem_map, List.mem_filter] at hc
      obtain ⟨q, ⟨hq, _⟩, rfl⟩ := hc
      exact hfresh q hq ha
    · intro p hp hne
      simp only [List.mem_append, List.mem_filter, decide_eq_true_eq] at hp
      rcases hp with hp | ⟨hp, hacc⟩
      · rw [f4 _ (hout p hp)]; exact ih.present p hp hne
      · exact f2 p hp hacc hne
    · intro c hc
      have hold : ∀ p ∈ out, p.1 = c → p.2 = [] := fun p hp => hc p (by simp [hp])
      by_cases hacc : c ∈ acc
      · have := f5 c hacc
        simp only [List.mem_map] at this
        obtain ⟨q, hq, rfl⟩ := this
        have he := hc q (by simp [hq, hacc]) rfl
        rw [f3 q hq hacc he]; exact ih.absent _ hold
      · rw [f4 c hacc]; exact ih.absent c hold
    · intro n
      rw [f1 n, ih.amount n, total_append]; omega
  | @release s out gone c _ ih =>
    have hr := release_running s c
    refine ⟨?_, ?_, ?_, ?_⟩
    · exact ih.keys.sublist (List.Sublist.map _ List.filter_sublist)
    · intro p hp hne
      simp only [List.mem_filter, bne_iff_ne] at hp
      rw [hr.2 _ hp.2]; exact ih.present p hp.1 hne
    · intro d hd
      by_cases hdc : d = c
      · subst hdc; exact hr.1
      · rw [hr.2 d hdc]
        apply ih.absent
        intro p hp hpd
        exact hd p (by simp [hp, hpd, hdc]) hpd
    · intro n
      -- the outstanding entries of `c`: at most one
      have hsplit : ∀ f : Cmd × List Request → Int, total f out = total f (out.filter (fun p => p.1 != c)) + total f (out.filter (fun p => p.1 == c)) := by
        intro f
        clear * -
        induction out with
        | nil => rfl
        | cons p out ih =>
          by_cases hp : p.1 = c
          · simp [hp, total, ih]; omega
          · simp [hp, total, ih]; omega
      have hone : out.filter (fun p => p.1 == c) = [] ∨ ∃ reqs, out.filter (fun p => p.1 == c) = [(c, reqs)] ∧ (c, reqs) ∈ out := by
        have hk := ih.keys
        clear * - hk
        induction out with
        | nil => exact .inl rfl
        | cons p out ih =>
          simp only [List.map_cons, List.nodup_cons] at hk
          by_cases hp : p.1 = c
          · right
            refine ⟨p.2, ?_, by simp [← hp]⟩
            have : out.filter (fun p => p.1 == c) = [] := by
              rw [List.filter_eq_nil_iff]
              intro q hq hqc
              simp at hqc
              exact hk.1 (by rw [hp, ← hqc]; exact List.mem_map_of_mem hq)
            obtain ⟨k, v⟩ := p
            simp only at hp
            subst hp
            simp [this]
          · rcases ih hk.2 with h | ⟨r, h, hm⟩
            · left; simp [hp, h]
            · right; exact ⟨r, by simp [hp, h], by simp [hm]⟩
      have ha := ih.amount n
      rw [hsplit] at ha
      rw [total_append]
      rcases hone with hz | ⟨reqs, hz, hm⟩
      · rw [hz] at ha ⊢
        have : s.running.lookup c = none := by
          apply ih.absent
          intro p hp hpc
          have : p ∈ out.filter (fun p => p.1 == c) := by simp [hp, hpc]
          rw [hz] at this; simp at this
        rw [release_none this]
        simp only [List.map_nil, total] at ha ⊢
        omega
      · rw [hz] at ha ⊢
        simp only [List.map_cons, List.map_nil, total, kept_eq] at ha ⊢
        by_cases hne : reqs = []
        · subst hne
          have : s.running.lookup c = none := by
            apply ih.absent
            intro p hp hpc
            have : p ∈ out.filter (fun p => p.1 == c) := by simp [hp, hpc]
            rw [hz] at this; simp at this; rw [this]
          rw [release_none this]
          simp only [needs_nil, amountOf, releasable, total] at ha ⊢
          omega
        · have hlk := ih.present _ hm hne
          rw [release_allocated hlk n]
          simp only at ha ⊢
          omega

/-- C20, conservation. At every moment of every history in which no command is submitted again while outstanding, the
amount allocated of a resource is exactly what the outstanding accepted commands are charged for it plus what the
released ones were charged with the release flag off. -/
theorem C20_conservation (fuel : Nat) (h : Hierarchy) (s : State) (out : Batch) (gone : List (List Request))
    (hl : Ledger fuel h s out gone) (n : Name) :
    s.allocated n = (out.map (fun p => charged fuel h n p.2)).sum + (gone.map (kept fuel h n)).sum := by
  rw [(ledger_inv hl).amount n, total_eq_sum, total_eq_sum]
  simp only [charged_eq]

/-- C20. When every command has been released and no amount was flagged to be kept, nothing is allocated. -/
theorem C20_all_released_all_free (fuel : Nat) (h : Hierarchy) (s : State) (gone : List (List Request))
    (hl : Ledger fuel h s [] gone) (hk : ∀ reqs ∈ gone, ∀ r ∈ needs fuel h reqs, r.release = true) :
    ∀ n, s.allocated n = 0 := by
  intro n
  rw [C20_conservation fuel h s [] gone hl n]
  simp only [List.map_nil, List.sum_nil, Int.zero_add]
  have : ∀ reqs ∈ gone, kept fuel h n reqs = 0 := by
    intro reqs hr
    unfold kept
    rw [← total_eq_sum]
    have := hk reqs hr
    revert this
    generalize needs fuel h reqs = rs
    intro this
    induction rs with
    | nil => rfl
    | cons r rs ih =>
      simp only [total, this r (by simp), ih (fun x hx => this x (by simp [hx]))]
      simp
  rw [List.map_congr_left this]
  clear * -
  induction gone with
  | nil => rfl
  | cons a l ih => simp [ih]

/-- C20. Releasing a command that is not outstanding (refused, never submitted, already released) changes nothing. -/
theorem C20_release_unknown_noop (fuel : Nat) (h : Hierarchy) (s : State) (out : Batch) (gone : List (List Request))
    (hl : Ledger fuel h s out gone) (c : Cmd) (hc : c ∉ out.map (·.1)) : release s c = s := by
  apply release_none
  apply (ledger_inv hl).absent
  intro p hp hpc
  exact absurd (hpc ▸ List.mem_map_of_mem hp) hc

/-- C20. Release is idempotent, in every state. -/
theorem C20_release_twice (s : State) (c : Cmd) : release (release s c) c = release s c :=
  release_none (release_running s c).1

example : ∃ s, Ledger 2 demoH s [] [demoReq 1] := by
  obtain ⟨r, h1, h2⟩ : ∃ r, arbitrate 2 demoH State.init [(1, demoReq 1)] = some r ∧ r.2.1 = [1] :=
    ⟨_, rfl, by decide +kernel⟩
  obtain ⟨s, acc, rej⟩ := r
  simp only at h2
  subst h2
  have := Ledger.release 1 (Ledger.submit (fuel := 2) (h := demoH) Ledger.init (by simp) (by simp) h1)
  exact ⟨_, by simpa using this⟩

end Verif.Props.Arbiter
