import Verif.Command.Sys
import Verif.Props.Command
/-!
C83: the resources of a command are in use exactly while it is being executed.
-/
namespace Verif.Command
set_option linter.unusedSimpArgs false
set_option autoImplicit false
open Verif.Arbiter (Hierarchy Request Cmd one)
open Verif.Props.Arbiter (Ledger charged kept needs)
variable {Env V : Type}

/-- Histories of a set of commands under an arbiter, with a ledger: `held` are the commands the arbiter let through whose nodes have not left since, with what they requested; `gone` what the
others had requested.  A node does not leave between the start of its command and the processing of the queue (C79, C16).  `mayDeny`: adapters may themselves respond COMMAND_DENIED. -/
inductive Hist (d : Cmd → Def Env V) (fuel : Nat) (h : Hierarchy) (mayDeny : Bool) : Sys V → List (Cmd × List Request) → List (List Request) → Prop
  | init : Hist d fuel h mayDeny {} [] []
  | start {s s' held gone} (c : Cmd) (e : Env) : Hist d fuel h mayDeny s held gone → s.start d c e = some s' → Hist d fuel h mayDeny s' held gone
  | outbound {s s' held gone acc} (throws : Cmd → Bool) : Hist d fuel h mayDeny s held gone → s.outbound fuel h throws = some (s', acc) →
      Hist d fuel h mayDeny s' (held ++ s.queue.filterMap (fun c => if c ∈ acc then (getResourceValues (s.cmds c)).map (fun r => (c, r)) else none)) gone
  | leave {s s' held gone} (c : Cmd) : Hist d fuel h mayDeny s held gone → c ∉ s.queue → s.leave c = some s' →
      Hist d fuel h mayDeny s' (held.filter (fun p => p.1 != c)) (gone ++ (held.filter (fun p => p.1 == c)).map (·.2))
  | other {s s' held gone} (c : Cmd) (x : Ev Env V) : Hist d fuel h mayDeny s held gone → (∀ e, x ≠ .start e) → x ≠ .leave →
      (x = .ack denied → mayDeny = true) → s.other d c x = some s' → Hist d fuel h mayDeny s' held gone

/-- What holds of the commands. -/
structure SInv (d : Cmd → Def Env V) (s : Sys V) (held : List (Cmd × List Request)) : Prop where
  hist : ∀ c, ∃ evs, run (d c) evs = some (s.cmds c)
  queue : s.queue.Nodup ∧ ∀ c ∈ s.queue, (s.cmds c).active = true ∧ (s.cmds c).handle ≠ denied ∧ c ∉ held.map (·.1)
  held : ∀ p ∈ held, (s.cmds p.1).active = true ∧ (s.cmds p.1).handle ≠ denied

theorem Sys.each_spec {f : Cmd → St V → Option (St V)} {l : List Cmd} {s s' : Sys V} (h : Sys.each f l s = some s') (hn : l.Nodup) :
    s'.queue = s.queue ∧ s'.arb = s.arb ∧ (∀ c ∉ l, s'.cmds c = s.cmds c) ∧ ∀ c ∈ l, f c (s.cmds c) = some (s'.cmds c) := by
  induction l generalizing s with
  | nil =>
    simp only [Sys.each, List.foldlM_nil, Option.pure_def, Option.some.injEq] at h
    subst h; simp
  | cons a l ih =>
    simp only [Sys.each, List.foldlM_cons, Option.bind_eq_bind] at h
    obtain ⟨t, h1, h2⟩ := Option.bind_eq_some_iff.mp h
    obtain ⟨u, h3, rfl⟩ := Option.map_eq_some_iff.mp h1
    rw [List.nodup_cons] at hn
    obtain ⟨i1, i2, i3, i4⟩ := ih h2 hn.2
    refine ⟨i1, i2, ?_, ?_⟩
    · intro c hc
      simp only [List.mem_cons, not_or] at hc
      rw [i3 c hc.2]; simp [Sys.put, hc.1]
    · intro c hc
      rcases List.mem_cons.mp hc with rfl | hc
      · rw [i3 c hn.1]; simpa [Sys.put] using h3
      · have hne : c ≠ a := fun e => hn.1 (e ▸ hc)
        have := i4 c hc
        simpa [Sys.put, hne] using this

theorem queue_batch {s : Sys V} {q : List Cmd} {batch : List (Cmd × List Request)} (h : q.mapM (fun c => (getResourceValues (s.cmds c)).map (fun r => (c, r))) = some batch) :
    batch.map (·.1) = q ∧ ∀ acc : List Cmd, batch.filter (fun p => p.1 ∈ acc) =
      q.filterMap (fun c => if c ∈ acc then (getResourceValues (s.cmds c)).map (fun r => (c, r)) else none) := by
  induction q generalizing batch with
  | nil => simp at h; subst h; simp
  | cons a q ih =>
    rw [List.mapM_cons] at h
    simp only [Option.bind_eq_bind] at h
    obtain ⟨x, h1, h⟩ := Option.bind_eq_some_iff.mp h
    obtain ⟨b, h2, h⟩ := Option.bind_eq_some_iff.mp h
    simp only [Option.pure_def, Option.some.injEq] at h
    subst h
    obtain ⟨r, hr, rfl⟩ := Option.map_eq_some_iff.mp h1
    obtain ⟨i1, i2⟩ := ih h2
    refine ⟨by simp [i1], fun acc => ?_⟩
    rw [List.filter_cons, List.filterMap_cons, i2 acc]
    by_cases ha : a ∈ acc <;> simp [ha, hr]

theorem run_step {d : Def Env V} {t t' : St V} {x : Ev Env V} (h : ∃ evs, run d evs = some t) (hs : step d t x = some t') : ∃ evs, run d evs = some t' := by
  obtain ⟨evs, h⟩ := h
  exact ⟨evs ++ [x], by rw [run_snoc, h]; exact hs⟩

theorem setHandle_active {n : Nat} {t t' : St V} (h : setHandle n t = some t') : t'.active = t.active ∧ (t'.handle = t.handle ∨ t'.handle = n) := by
  unfold setHandle at h
  split at h
  · cases h; exact ⟨rfl, .inl rfl⟩
  · split at h
    · cases h; exact ⟨rfl, .inr rfl⟩
    · cases h

theorem sinv {d : Cmd → Def Env V} {fuel : Nat} {h : Hierarchy} {s : Sys V} {held gone} (hh : Hist d fuel h false s held gone) :
    SInv d s held ∧ Ledger fuel h s.arb held gone := by
  induction hh with
  | init => exact ⟨⟨fun c => ⟨[], rfl⟩, ⟨by simp, by simp⟩, by simp⟩, .init⟩
  | @start s s' held gone c e _ hs ih =>
    obtain ⟨hi, hl⟩ := ih
    unfold Sys.start at hs
    simp only [Option.bind_eq_bind] at hs
    obtain ⟨t, h1, h2⟩ := Option.bind_eq_some_iff.mp hs
    simp only [Option.some.injEq] at h2
    subst h2
    obtain ⟨evs, hr⟩ := hi.hist c
    obtain ⟨a0, -, -, -, a4, a5, -⟩ := start_spec (inv_run hr).consts h1
    have hcq : c ∉ s.queue := by
      intro hc; rw [(hi.queue.2 c hc).1] at a0; cases a0
    have hch : c ∉ held.map (·.1) := by
      intro hc
      obtain ⟨p, hp, rfl⟩ := List.mem_map.mp hc
      rw [(hi.held p hp).1] at a0; cases a0
    refine ⟨⟨?_, ⟨?_, ?_⟩, ?_⟩, hl⟩
    · intro c'
      by_cases hc : c' = c
      · subst hc; simp only [Sys.put, if_true]; exact run_step (x := .start e) (hi.hist c') h1
      · simp only [Sys.put, hc, if_false]; exact hi.hist c'
    · rw [List.nodup_append]
      refine ⟨hi.queue.1, by simp, ?_⟩
      rintro a ha b hb rfl
      simp at hb; subst hb; exact hcq ha
    · intro c' hc'
      by_cases hc : c' = c
      · subst hc; simp only [Sys.put, if_true]; exact ⟨a4, by rw [a5]; decide, hch⟩
      · simp only [Sys.put, hc, if_false]
        refine hi.queue.2 c' ?_
        simpa [hc] using hc'
    · intro p hp
      have hne : p.1 ≠ c := fun e => hch (e ▸ List.mem_map_of_mem hp)
      simp only [Sys.put, hne, if_false]
      exact hi.held p hp
  | @outbound s s' held gone acc throws _ hs ih =>
    obtain ⟨hi, hl⟩ := ih
    unfold Sys.outbound at hs
    simp only [Option.bind_eq_bind] at hs
    obtain ⟨batch, hb, hs⟩ := Option.bind_eq_some_iff.mp hs
    obtain ⟨⟨arb, acc', rej⟩, ha, hs⟩ := Option.bind_eq_some_iff.mp hs
    obtain ⟨s1, h1, hs⟩ := Option.bind_eq_some_iff.mp hs
    obtain ⟨s2, h2, hs⟩ := Option.bind_eq_some_iff.mp hs
    simp only [Option.some.injEq, Prod.mk.injEq] at hs
    obtain ⟨rfl, rfl⟩ := hs
    obtain ⟨hb1, hb2⟩ := queue_batch hb
    have hperm := (Verif.Props.Arbiter.C18_each_decided_once fuel h s.arb arb batch acc' rej ha).1
    rw [hb1] at hperm
    have hnd : (acc' ++ rej).Nodup := hperm.nodup_iff.mpr hi.queue.1
    rw [List.nodup_append] at hnd
    obtain ⟨n1, n2, n3⟩ := hnd
    obtain ⟨q1, r1, o1, m1⟩ := Sys.each_spec h1 n1
    obtain ⟨q2, r2, o2, m2⟩ := Sys.each_spec h2 n2
    have facts : ∀ c, (s2.cmds c).active = (s.cmds c).active ∧ (c ∉ rej → (s2.cmds c).handle = (s.cmds c).handle ∨ (s2.cmds c).handle = interfaceError) ∧
        ∃ evs, run (d c) evs = some (s2.cmds c) := by
      intro c
      have f1 : (s1.cmds c).active = (s.cmds c).active ∧ ((s1.cmds c).handle = (s.cmds c).handle ∨ (s1.cmds c).handle = interfaceError) ∧ ∃ evs, run (d c) evs = some (s1.cmds c) := by
        by_cases hc : c ∈ acc'
        · have := m1 c hc
          unfold executeCommand at this
          split at this
          · have h' := setHandle_active this
            exact ⟨h'.1, h'.2, run_step (x := .ack interfaceError) (hi.hist c) this⟩
          · simp only [Option.some.injEq] at this
            rw [← this]; exact ⟨rfl, .inl rfl, hi.hist c⟩
        · rw [o1 c hc]; exact ⟨rfl, .inl rfl, hi.hist c⟩
      by_cases hc : c ∈ rej
      · have := m2 c hc
        unfold reportDenied at this
        have h' := setHandle_active this
        exact ⟨h'.1.trans f1.1, fun hn => absurd hc hn, run_step (x := .ack denied) f1.2.2 this⟩
      · rw [o2 c hc]; exact ⟨f1.1, fun _ => f1.2.1, f1.2.2⟩
    have hfresh : ∀ p ∈ batch, p.1 ∉ held.map (·.1) := by
      intro p hp
      exact (hi.queue.2 p.1 (hb1 ▸ List.mem_map_of_mem hp)).2.2
    refine ⟨⟨fun c => (facts c).2.2, ?_, ?_⟩, ?_⟩
    · have : s2.queue = [] := q2.trans (q1.trans rfl)
      rw [this]; simp
    · intro p hp
      rcases List.mem_append.mp hp with hp | hp
      · have hrej : p.1 ∉ rej := by
          intro hr
          have : p.1 ∈ s.queue := hperm.subset (by simp [hr])
          exact (hi.queue.2 _ this).2.2 (List.mem_map_of_mem hp)
        obtain ⟨g1, g2⟩ := hi.held p hp
        refine ⟨(facts p.1).1.trans g1, ?_⟩
        rcases (facts p.1).2.1 hrej with e | e
        · rw [e]; exact g2
        · rw [e]; decide
      · rw [← hb2] at hp
        simp only [List.mem_filter, decide_eq_true_eq] at hp
        have hq : p.1 ∈ s.queue := hb1 ▸ List.mem_map_of_mem hp.1
        have hrej : p.1 ∉ rej := fun hr => n3 _ hp.2 _ hr rfl
        refine ⟨(facts p.1).1.trans (hi.queue.2 _ hq).1, ?_⟩
        rcases (facts p.1).2.1 hrej with e | e
        · rw [e]; exact (hi.queue.2 _ hq).2.1
        · rw [e]; decide
    · rw [← hb2]
      have hr : s2.arb = arb := r2.trans (r1.trans rfl)
      rw [hr]
      exact .submit hl (by rw [hb1]; exact hi.queue.1) hfresh ha
  | @leave s s' held gone c _ hcq hs ih =>
    obtain ⟨hi, hl⟩ := ih
    unfold Sys.leave at hs
    simp only [Option.bind_eq_bind] at hs
    obtain ⟨t, h1, h2⟩ := Option.bind_eq_some_iff.mp hs
    simp only [Option.some.injEq] at h2
    have hcm : s'.cmds = (s.put c t).cmds ∧ s'.queue = s.queue := by
      rw [← h2]; split <;> exact ⟨rfl, rfl⟩
    have hne : ∀ p ∈ held.filter (fun p => p.1 != c), p.1 ≠ c ∧ p ∈ held := by
      intro p hp
      simp only [List.mem_filter, bne_iff_ne] at hp
      exact ⟨hp.2, hp.1⟩
    refine ⟨⟨?_, ?_, ?_⟩, ?_⟩
    · intro c'
      rw [hcm.1]
      by_cases hc : c' = c
      · subst hc; simp only [Sys.put, if_true]; exact run_step (x := .leave) (hi.hist c') h1
      · simp only [Sys.put, hc, if_false]; exact hi.hist c'
    · rw [hcm.1, hcm.2]
      refine ⟨hi.queue.1, ?_⟩
      intro c' hc'
      have hc : c' ≠ c := fun e => hcq (e ▸ hc')
      obtain ⟨g1, g2, g3⟩ := hi.queue.2 c' hc'
      simp only [Sys.put, hc, if_false]
      refine ⟨g1, g2, fun hm => g3 ?_⟩
      obtain ⟨p, hp, rfl⟩ := List.mem_map.mp hm
      exact List.mem_map_of_mem (hne p hp).2
    · intro p hp
      obtain ⟨e1, e2⟩ := hne p hp
      rw [hcm.1]
      simp only [Sys.put, e1, if_false]
      exact hi.held p e2
    · by_cases hd : (s.cmds c).handle = denied
      · rw [if_neg (by simp [hd])] at h2
        have hnot : ∀ p ∈ held, p.1 ≠ c := fun p hp e => (hi.held p hp).2 (e ▸ hd)
        have e1 : held.filter (fun p => p.1 != c) = held := by
          rw [List.filter_eq_self]; intro p hp; simpa using hnot p hp
        have e2 : held.filter (fun p => p.1 == c) = [] := by
          rw [List.filter_eq_nil_iff]; intro p hp; simpa using hnot p hp
        rw [e1, e2, ← h2, List.map_nil, List.append_nil]
        exact hl
      · rw [if_pos hd] at h2
        rw [← h2]
        exact .release c hl
  | @other s s' held gone c x _ hx1 hx2 hx3 hs ih =>
    obtain ⟨hi, hl⟩ := ih
    unfold Sys.other at hs
    obtain ⟨t, h1, rfl⟩ := Option.map_eq_some_iff.mp hs
    have hx3 : x ≠ .ack denied := fun e => by have := hx3 e; cases this
    have key : t.active = (s.cmds c).active ∧ ((s.cmds c).handle ≠ denied → t.handle ≠ denied) := by
      cases x with
      | start e => exact absurd rfl (hx1 e)
      | leave => exact absurd rfl hx2
      | ack n =>
        obtain ⟨g1, g2⟩ := setHandle_active (show setHandle n (s.cmds c) = some t from h1)
        refine ⟨g1, fun hn => ?_⟩
        rcases g2 with e | e
        · rw [e]; exact hn
        · rw [e]; intro e2; exact hx3 (by rw [e2])
      | fail =>
        change fail (s.cmds c) = some t at h1
        unfold fail at h1
        split at h1
        · cases h1
        · cases h1; exact ⟨rfl, id⟩
      | ret v => cases h1; unfold returnValue; split <;> exact ⟨rfl, id⟩
      | abortAck b =>
        cases h1; unfold ackAbort
        split
        · exact ⟨rfl, id⟩
        · split <;> exact ⟨rfl, id⟩
      | watch => cases h1; exact ⟨rfl, id⟩
      | unwatch =>
        simp only [step] at h1
        split at h1
        · cases h1
        · cases h1; exact ⟨rfl, id⟩
    have pt : ∀ c', ((s.put c t).cmds c').active = (s.cmds c').active ∧ ((s.cmds c').handle ≠ denied → ((s.put c t).cmds c').handle ≠ denied) := by
      intro c'
      by_cases hc : c' = c
      · subst hc; simpa only [Sys.put, if_true] using key
      · simp only [Sys.put, hc, if_false]; exact ⟨trivial, id⟩
    refine ⟨⟨?_, ⟨hi.queue.1, ?_⟩, ?_⟩, hl⟩
    · intro c'
      by_cases hc : c' = c
      · subst hc; simp only [Sys.put, if_true]; exact run_step (hi.hist c') h1
      · simp only [Sys.put, hc, if_false]; exact hi.hist c'
    · intro c' hc'
      obtain ⟨g1, g2, g3⟩ := hi.queue.2 c' hc'
      exact ⟨(pt c').1.trans g1, (pt c').2 g2, g3⟩
    · intro p hp
      obtain ⟨g1, g2⟩ := hi.held p hp
      exact ⟨(pt p.1).1.trans g1, (pt p.1).2 g2⟩

/-- **C83, partial.**  In every history in which no adapter responds COMMAND_DENIED itself, the amount of each resource in use is exactly what the commands that were let through and are
still being executed are charged, plus what the earlier ones had requested to be kept.  Missing: adapters that respond COMMAND_DENIED, see `c83_denied_leaks`. -/
theorem c83_in_use_partial {d : Cmd → Def Env V} {fuel : Nat} {h : Hierarchy} {s : Sys V} {held gone} (hh : Hist d fuel h false s held gone) (n : String) :
    s.arb.allocated n = (held.map (fun p => charged fuel h n p.2)).sum + (gone.map (kept fuel h n)).sum ∧ ∀ p ∈ held, (s.cmds p.1).active = true := by
  obtain ⟨hi, hl⟩ := sinv hh
  exact ⟨Verif.Props.Arbiter.C20_conservation fuel h s.arb held gone hl n, fun p hp => (hi.held p hp).1⟩

/-- **C83.**  In particular, when no command is being executed and nothing was to be kept, everything is free again: no history leaks resources. -/
theorem c83_all_free {d : Cmd → Def Env V} {fuel : Nat} {h : Hierarchy} {s : Sys V} {held gone} (hh : Hist d fuel h false s held gone)
    (ha : ∀ c, (s.cmds c).active = false) (hk : ∀ reqs ∈ gone, ∀ r ∈ needs fuel h reqs, r.release = true) (n : String) : s.arb.allocated n = 0 := by
  obtain ⟨hi, hl⟩ := sinv hh
  have : held = [] := by
    cases held with
    | nil => rfl
    | cons p l =>
      have := (hi.held p (by simp)).1
      rw [ha] at this; cases this
  subst this
  exact Verif.Props.Arbiter.C20_all_released_all_free fuel h s.arb gone hl hk n

/-- Scripts for the examples. -/
inductive Op (Env V : Type)
  | start (c : Cmd) (e : Env)
  | outbound
  | leave (c : Cmd)
  | ack (c : Cmd) (n : Nat)

/-- Run one operation with its ledger. -/
def opStep (d : Cmd → Def Env V) (fuel : Nat) (h : Hierarchy) (mayDeny : Bool) (x : Sys V × List (Cmd × List Request) × List (List Request)) :
    Op Env V → Option (Sys V × List (Cmd × List Request) × List (List Request))
  | .start c e => (x.1.start d c e).map (fun s' => (s', x.2))
  | .outbound => (x.1.outbound fuel h (fun _ => false)).map (fun r => (r.1, x.2.1 ++ x.1.queue.filterMap (fun c => if c ∈ r.2 then (getResourceValues (x.1.cmds c)).map (fun r => (c, r)) else none), x.2.2))
  | .leave c => if c ∈ x.1.queue then none else (x.1.leave c).map (fun s' => (s', x.2.1.filter (fun p => p.1 != c), x.2.2 ++ (x.2.1.filter (fun p => p.1 == c)).map (·.2)))
  | .ack c n => if n = denied ∧ mayDeny = false then none else (x.1.other d c (.ack n)).map (fun s' => (s', x.2))

theorem hist_ops (d : Cmd → Def Env V) (fuel : Nat) (h : Hierarchy) (mayDeny : Bool) (ops : List (Op Env V)) {x}
    (hx : Hist d fuel h mayDeny x.1 x.2.1 x.2.2) {y} (hy : ops.foldlM (opStep d fuel h mayDeny) x = some y) : Hist d fuel h mayDeny y.1 y.2.1 y.2.2 := by
  induction ops generalizing x with
  | nil => simp only [List.foldlM_nil, Option.pure_def, Option.some.injEq] at hy; exact hy ▸ hx
  | cons o ops ih =>
    simp only [List.foldlM_cons, Option.bind_eq_bind] at hy
    obtain ⟨z, hz, hy⟩ := Option.bind_eq_some_iff.mp hy
    refine ih ?_ hy
    cases o with
    | start c e =>
      obtain ⟨s', h1, rfl⟩ := Option.map_eq_some_iff.mp hz
      exact hx.start c e h1
    | outbound =>
      obtain ⟨r, h1, rfl⟩ := Option.map_eq_some_iff.mp hz
      exact hx.outbound _ h1
    | leave c =>
      simp only [opStep] at hz
      split at hz
      · cases hz
      rename_i hc
      obtain ⟨s', h1, rfl⟩ := Option.map_eq_some_iff.mp hz
      exact hx.leave c hc h1
    | ack c n =>
      simp only [opStep] at hz
      split at hz
      · cases hz
      rename_i hc
      obtain ⟨s', h1, rfl⟩ := Option.map_eq_some_iff.mp hz
      refine hx.other c (.ack n) (by simp) (by simp) (fun e => ?_) h1
      cases e
      simpa using hc

/-- Two commands that want the same resource: one is sent, one denied; the resource is in use; both leave; all is free. -/
theorem c83_example :
    (∃ s held gone, Hist (fun _ => demo) 1 [] false s held gone ∧ held = [(1, [⟨"r", one, 3, true⟩])] ∧ gone = [] ∧ (s.cmds 2).handle = denied ∧ s.arb.allocated "r" = one) ∧
    ∃ s held gone, Hist (fun _ => demo) 1 [] false s held gone ∧ held = [] ∧ gone = [[⟨"r", one, 3, true⟩]] ∧ (s.cmds 1).handle = success ∧
      ((s.cmds 1).active || (s.cmds 2).active) = false ∧ s.arb.allocated "r" = 0 := by
  constructor
  · obtain ⟨y, hy, h⟩ := Option.map_eq_some_iff.mp (show (List.foldlM (opStep (fun _ => demo) 1 [] false) ({}, [], []) [.start 1 1, .outbound, .start 2 2, .outbound]).map
      (fun y => (y.2.1, y.2.2, (y.1.cmds 2).handle, y.1.arb.allocated "r")) = some ([(1, [⟨"r", one, 3, true⟩])], [], denied, one) by decide +kernel)
    simp only [Prod.mk.injEq] at h
    exact ⟨y.1, y.2.1, y.2.2, hist_ops _ _ _ _ _ .init hy, h⟩
  · obtain ⟨y, hy, h⟩ := Option.map_eq_some_iff.mp (show (List.foldlM (opStep (fun _ => demo) 1 [] false) ({}, [], []) [.start 1 1, .outbound, .start 2 2, .outbound, .ack 1 success, .leave 2, .leave 1]).map
      (fun y => (y.2.1, y.2.2, (y.1.cmds 1).handle, ((y.1.cmds 1).active || (y.1.cmds 2).active), y.1.arb.allocated "r")) = some ([], [[⟨"r", one, 3, true⟩]], success, false, 0) by decide +kernel)
    simp only [Prod.mk.injEq] at h
    exact ⟨y.1, y.2.1, y.2.2, hist_ops _ _ _ _ _ .init hy, h⟩

/-- **C83, counterexample.**  An adapter that responds COMMAND_DENIED to a command that was let through: its resource stays in use for ever, nobody is using it, and the next command that wants it is denied. -/
theorem c83_denied_leaks : ∃ s held gone, Hist (fun _ => demo) 1 [] true s held gone ∧ held = [] ∧ (s.cmds 1).active = false ∧ s.arb.allocated "r" = one ∧ (s.cmds 2).handle = denied := by
  obtain ⟨y, hy, h⟩ := Option.map_eq_some_iff.mp (show (List.foldlM (opStep (fun _ => demo) 1 [] true) ({}, [], []) [.start 1 1, .outbound, .ack 1 denied, .leave 1, .start 2 2, .outbound]).map
      (fun y => (y.2.1, (y.1.cmds 1).active, y.1.arb.allocated "r", (y.1.cmds 2).handle)) = some ([], false, one, denied) by decide +kernel)
  simp only [Prod.mk.injEq] at h
  exact ⟨y.1, y.2.1, y.2.2, hist_ops _ _ _ _ _ .init hy, h⟩

end Verif.Command
