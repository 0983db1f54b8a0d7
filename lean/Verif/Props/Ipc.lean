import Verif.Ipc.Spec
set_option autoImplicit false
/-!
C98: messages in several packets arrive whole. C99: subscriptions.
-/
namespace Verif.Ipc
variable {B : Type}

theorem trailers_length (m : Out B) (bs : List B) : ∀ (i : Nat), (m.trailers i bs).length = bs.length := by
  induction bs with
  | nil => intro i; rfl
  | cons b r ih => intro i; simp [Out.trailers, ih]

theorem trailers_mem (m : Out B) (bs : List B) : ∀ (i : Nat) (p : Packet B), p ∈ m.trailers i bs → p.kind = .trailer ∧ p.key = m.key := by
  induction bs with
  | nil => intro i p h; simp [Out.trailers] at h
  | cons b r ih =>
    intro i p h
    simp only [Out.trailers, List.mem_cons] at h
    rcases h with rfl | h
    · exact ⟨rfl, rfl⟩
    · exact ih _ p h

theorem packets_key {m : Out B} {p : Packet B} (h : p ∈ m.packets) : p.key = m.key := by
  simp only [Out.packets, List.mem_cons] at h
  rcases h with rfl | h
  · rfl
  · exact (trailers_mem m _ _ p h).2

theorem tail_kind {m : Out B} {p : Packet B} (h : p ∈ m.packets.tail) : p.kind = .trailer := (trailers_mem m _ _ p h).1

theorem packets_length (m : Out B) : m.packets.length = m.params.length + 1 := by simp [Out.packets, trailers_length]

/-- A leader arrives and nothing is pending under its identifier. -/
theorem handle_leader (me : String) (r : Rx B) (m : Out B) (hp : m.Proper) (hn : r.inc m.key = none) :
    (m.ForMe me → m.params = [] → r.handle me m.leader = (r, some [m.leader])) ∧
    (m.ForMe me → m.params ≠ [] → r.handle me m.leader = (r.set m.key (some [m.leader]), none)) ∧
    (¬ m.ForMe me → r.handle me m.leader = (r, none)) := by
  have hc : m.leader.count = m.params.length := Nat.mod_eq_of_lt hp.few
  have hk : m.leader.key = m.key := rfl
  have hz : m.params.length = 0 ↔ m.params = [] := List.length_eq_zero_iff
  have hl : r.leader m.leader = if m.params = [] then (r, some [m.leader]) else (r.set m.key (some [m.leader]), none) := by
    simp only [Rx.leader, hk, hn, hc, hz]
  have hkind : m.leader.kind = m.kind := rfl
  simp only [Rx.handle, hkind]
  cases h : m.kind with
  | command =>
    have hf : m.ForMe me := fun to e => by rw [h] at e; cases e
    refine ⟨fun _ e => ?_, fun _ e => ?_, fun e => absurd hf e⟩
    · simp [hc, e]
    · simp [hc, e, hl]
  | lookupNow =>
    have hf : m.ForMe me := fun to e => by rw [h] at e; cases e
    refine ⟨fun _ e => ?_, fun _ e => ?_, fun e => absurd hf e⟩
    · simp [hc, e]
    · simp [hc, e, hl]
  | plannerUpdate =>
    have hf : m.ForMe me := fun to e => by rw [h] at e; cases e
    exact ⟨fun _ e => by simp [hl, e], fun _ e => by simp [hl, e], fun e => absurd hf e⟩
  | telemetry =>
    have hf : m.ForMe me := fun to e => by rw [h] at e; cases e
    exact ⟨fun _ e => by simp [hl, e], fun _ e => by simp [hl, e], fun e => absurd hf e⟩
  | returnValues to =>
    by_cases ht : to = me
    · have hf : m.ForMe me := fun t e => by rw [h] at e; cases e; exact ht
      exact ⟨fun _ e => by simp [hl, e, ht], fun _ e => by simp [hl, e, ht], fun e => absurd hf e⟩
    · have hf : ¬ m.ForMe me := fun hf => ht (hf to h)
      exact ⟨fun e => absurd e hf, fun e => absurd e hf, fun _ => by simp [ht]⟩
  | single n =>
    have hf : m.ForMe me := fun to e => by rw [h] at e; cases e
    exact ⟨fun _ _ => rfl, fun _ e => absurd (hp.single n h) e, fun e => absurd hf e⟩
  | trailer => exact absurd h hp.kind.1
  | invalid => exact absurd h hp.kind.2

theorem handle_trailer (me : String) (r : Rx B) (p : Packet B) (h : p.kind = .trailer) : r.handle me p = r.trailer p := by
  simp [Rx.handle, h]

/-- The message is being put together. -/
def Arrival.Pending (me : String) (a : Arrival B) : Prop := a.msg.ForMe me ∧ a.got ≠ [] ∧ a.got <+: a.msg.packets ∧ a.got ≠ a.msg.packets

/-- What the receiver knows is what has arrived. -/
structure Inv (me : String) (f : Facade B) (as : List (Arrival B)) : Prop where
  ok : f.rx.failed = false
  inc : ∀ (k : Key) (v : List (Packet B)), f.rx.inc k = some v ↔ ∃ a ∈ as, a.msg.key = k ∧ a.Pending me ∧ v = a.got
  mem : ∀ (x : List (Packet B)), x ∈ f.delivered ↔ ∃ a ∈ as, a.Complete ∧ a.msg.ForMe me ∧ x = a.msg.packets
  nodup : f.delivered.Nodup

theorem nodup_key {as : List (Arrival B)} (h : (as.map (fun a => a.msg.key)).Nodup) {a b : Arrival B} (ha : a ∈ as) (hb : b ∈ as)
    (e : a.msg.key = b.msg.key) : a = b := by
  induction as with
  | nil => simp at ha
  | cons c r ih =>
    simp only [List.map_cons, List.nodup_cons, List.mem_map, not_exists, not_and] at h
    rcases List.mem_cons.1 ha with h1 | h1 <;> rcases List.mem_cons.1 hb with h2 | h2
    · rw [h1, h2]
    · exact absurd (h1 ▸ e.symm) (h.1 b h2)
    · exact absurd (h2 ▸ e) (h.1 a h1)
    · exact ih h.2 h1 h2

theorem leader_ne_trailer {m : Out B} (hp : m.Proper) : m.leader.kind ≠ .trailer := hp.kind.1

/-- Packets without the leader are not a beginning of the message. -/
theorem late_not_prefix {m : Out B} (hp : m.Proper) {l : List (Packet B)} {k : Nat} (h : l <+: m.packets.tail.drop k) (hl : l ≠ []) : ¬ l <+: m.packets := by
  intro hq
  obtain ⟨x, l', rfl⟩ := List.exists_cons_of_ne_nil hl
  have h1 : x ∈ m.packets.tail := List.mem_of_mem_drop (h.subset (by simp))
  have h2 : x = m.leader := by
    obtain ⟨t, ht⟩ := hq
    simp only [Out.packets, List.cons_append, List.cons.injEq] at ht
    exact ht.1
  have := tail_kind h1
  rw [h2] at this
  exact leader_ne_trailer hp this

theorem inv_step {me : String} {f : Facade B} {as bs : List (Arrival B)} {a : Arrival B} {l : List (Packet B)} {x : Packet B}
    (i : Inv me f (as ++ { a with got := l } :: bs)) (hk : ((as ++ a :: bs).map (fun a => a.msg.key)).Nodup) (hp : a.msg.Proper)
    (hg : a.got = l ++ [x]) (ho : a.Ok) : Inv me (f.packet me x) (as ++ a :: bs) := by
  have hx : x ∈ a.msg.packets := by
    rcases ho with h | ⟨k, h⟩
    · exact h.subset (by simp [hg])
    · exact List.mem_of_mem_tail (List.mem_of_mem_drop (h.subset (by simp [hg])))
  have hxk : x.key = a.msg.key := packets_key hx
  have hk' : ((as ++ { a with got := l } :: bs).map (fun a => a.msg.key)).Nodup := by simpa using hk
  have hlc : l ≠ a.msg.packets := by
    intro e
    rcases ho with h | ⟨k, h⟩
    · have := h.length_le; rw [hg, e] at this; simp at this; omega
    · have := h.length_le; rw [hg, e] at this; simp at this; omega
  -- what is pending under the identifier of the packet
  have hinc : ∀ v, f.rx.inc a.msg.key = some v ↔ Arrival.Pending me { a with got := l } ∧ v = l := by
    intro v
    rw [i.inc]
    constructor
    · rintro ⟨b, hb, e, h1, h2⟩
      have := nodup_key hk' hb (b := { a with got := l }) (by simp) e
      subst this; exact ⟨h1, h2⟩
    · rintro ⟨h1, h2⟩; exact ⟨{ a with got := l }, by simp, rfl, h1, h2⟩
  have old : ∀ b, (b ∈ as ∨ b ∈ bs) → b.msg.key ≠ a.msg.key := by
    intro b hb e
    simp only [List.map_append, List.map_cons, List.nodup_append, List.nodup_cons, List.mem_map, List.mem_cons] at hk
    rcases hb with hb | hb
    · exact hk.2.2 _ ⟨b, hb, rfl⟩ _ (.inl rfl) e
    · exact hk.2.1.1 ⟨b, hb, e⟩
  -- after the packet, if the entry and the delivery are as they should be
  have fin : ∀ (r : Rx B) (d : Option (List (Packet B))), f.rx.handle me x = (r, d) → r.failed = false →
      (∀ k, k ≠ a.msg.key → r.inc k = f.rx.inc k) → (∀ v, r.inc a.msg.key = some v ↔ a.Pending me ∧ v = a.got) →
      (∀ y, d = some y ↔ a.Complete ∧ a.msg.ForMe me ∧ y = a.msg.packets) → Inv me (f.packet me x) (as ++ a :: bs) := by
    intro r d hh hf h1 h2 h3
    have hpk : f.packet me x = { rx := r, delivered := f.delivered ++ d.toList } := by simp [Facade.packet, i.ok, hh]
    have hmem : ∀ y, y ∈ f.delivered ↔ ∃ b, (b ∈ as ∨ b ∈ bs) ∧ b.Complete ∧ b.msg.ForMe me ∧ y = b.msg.packets := by
      intro y
      rw [i.mem]
      constructor
      · rintro ⟨b, hb, h⟩
        simp only [List.mem_append, List.mem_cons] at hb
        rcases hb with hb | rfl | hb
        · exact ⟨b, .inl hb, h⟩
        · exact absurd h.1 hlc
        · exact ⟨b, .inr hb, h⟩
      · rintro ⟨b, hb, h⟩
        exact ⟨b, by simp only [List.mem_append, List.mem_cons]; rcases hb with hb | hb <;> simp [hb], h⟩
    rw [hpk]
    refine ⟨hf, fun k v => ?_, fun y => ?_, ?_⟩
    · by_cases e : k = a.msg.key
      · subst e
        show r.inc _ = some v ↔ _
        rw [h2]
        constructor
        · rintro ⟨h, rfl⟩; exact ⟨a, by simp, rfl, h, rfl⟩
        · rintro ⟨b, hb, e, h, rfl⟩
          have := nodup_key hk hb (b := a) (by simp) e
          subst this; exact ⟨h, rfl⟩
      · show r.inc k = some v ↔ _
        rw [h1 k e, i.inc]
        constructor
        · rintro ⟨b, hb, rfl, h⟩
          simp only [List.mem_append, List.mem_cons] at hb
          rcases hb with hb | rfl | hb
          · exact ⟨b, by simp [hb], rfl, h⟩
          · exact absurd rfl e
          · exact ⟨b, by simp [hb], rfl, h⟩
        · rintro ⟨b, hb, rfl, h⟩
          simp only [List.mem_append, List.mem_cons] at hb
          rcases hb with hb | rfl | hb
          · exact ⟨b, by simp [hb], rfl, h⟩
          · exact absurd rfl e
          · exact ⟨b, by simp [hb], rfl, h⟩
    · show y ∈ f.delivered ++ d.toList ↔ _
      rw [List.mem_append, Option.mem_toList, h3, hmem]
      constructor
      · rintro (⟨b, hb, h⟩ | h)
        · exact ⟨b, by rcases hb with hb | hb <;> simp [hb], h⟩
        · exact ⟨a, by simp, h⟩
      · rintro ⟨b, hb, h⟩
        simp only [List.mem_append, List.mem_cons] at hb
        rcases hb with hb | rfl | hb
        · exact .inl ⟨b, .inl hb, h⟩
        · exact .inr h
        · exact .inl ⟨b, .inr hb, h⟩
    · show (f.delivered ++ d.toList).Nodup
      rw [List.nodup_append]
      refine ⟨i.nodup, by cases d <;> simp, fun y hy z hz e => ?_⟩
      subst e
      rw [Option.mem_toList, h3] at hz
      obtain ⟨b, hb, _, _, e⟩ := (hmem y).1 hy
      have e2 := e.symm.trans hz.2.2
      have := congrArg (List.head?) e2
      simp only [Out.packets, List.head?_cons, Option.some.injEq] at this
      exact old b hb (by have h := congrArg Packet.key this; exact h)
  rcases ho with ho | ⟨k, ho⟩
  · rw [hg] at ho
    by_cases hl : l = []
    · -- the leader
      subst hl
      have hxl : x = a.msg.leader := by
        obtain ⟨t, ht⟩ := ho
        simp only [Out.packets, List.nil_append, List.cons_append, List.cons.injEq] at ht
        exact ht.1
      subst hxl
      have hn : f.rx.inc a.msg.key = none := by
        cases h : f.rx.inc a.msg.key with
        | none => rfl
        | some v => exact absurd rfl ((hinc v).1 h).1.2.1
      obtain ⟨h1, h2, h3⟩ := handle_leader me f.rx a.msg hp hn
      have hgot : a.got = [a.msg.leader] := by simpa using hg
      by_cases hf : a.msg.ForMe me
      · by_cases hpar : a.msg.params = []
        · have hpk : a.msg.packets = [a.msg.leader] := by simp [Out.packets, hpar, Out.trailers]
          refine fin _ _ (h1 hf hpar) i.ok (fun _ _ => rfl) (fun v => ?_) (fun y => ?_)
          · rw [hn]
            constructor
            · intro h; cases h
            · rintro ⟨h, _⟩; exact absurd (hgot.trans hpk.symm) h.2.2.2
          · simp only [Option.some.injEq, Arrival.Complete, hgot, hpk, true_and, hf]
            exact ⟨fun h => h.symm, fun h => h.symm⟩
        · have hne : [a.msg.leader] ≠ a.msg.packets := by
            intro e
            have := congrArg List.length e
            rw [packets_length] at this
            simp at this
            exact hpar this
          refine fin _ _ (h2 hf hpar) i.ok (fun k hk => by simp [Rx.set, hk]) (fun v => ?_) (fun y => ?_)
          · simp only [Rx.set, if_true, Option.some.injEq]
            constructor
            · rintro rfl
              refine ⟨⟨hf, by rw [hgot]; simp, by rw [hgot]; exact ⟨a.msg.trailers 0 a.msg.params, rfl⟩, by rw [hgot]; exact hne⟩, hgot.symm⟩
            · rintro ⟨_, h⟩; rw [h, hgot]
          · simp only [reduceCtorEq, Arrival.Complete, hgot, false_iff, not_and]
            exact fun h => absurd h hne
      · refine fin _ _ (h3 hf) i.ok (fun _ _ => rfl) (fun v => ?_) (fun y => ?_)
        · rw [hn]
          constructor
          · intro h; cases h
          · rintro ⟨h, _⟩; exact absurd h.1 hf
        · simp only [reduceCtorEq, false_iff, not_and]
          exact fun _ h => absurd h hf
    · -- a parameter
      obtain ⟨y, l', rfl⟩ := List.exists_cons_of_ne_nil hl
      have hy : y = a.msg.leader := by
        obtain ⟨t, ht⟩ := ho
        simp only [Out.packets, List.cons_append, List.cons.injEq] at ht
        exact ht.1
      have hxt : x.kind = .trailer := by
        obtain ⟨t, ht⟩ := ho
        simp only [Out.packets, List.cons_append, List.cons.injEq] at ht
        exact (trailers_mem a.msg a.msg.params 0 x (by rw [← ht.2]; simp)).1
      have hpre : y :: l' <+: a.msg.packets := (List.prefix_append _ [x]).trans ho
      have hlen : (y :: l' ++ [x]).length ≤ a.msg.params.length + 1 := by rw [← packets_length]; exact ho.length_le
      have hfull : (y :: l' ++ [x] = a.msg.packets) ↔ a.msg.params.length < (y :: l' ++ [x]).length := by
        constructor
        · intro e; rw [e, packets_length]; omega
        · intro h; exact ho.eq_of_length (by rw [packets_length]; omega)
      have hh : f.rx.handle me x = f.rx.trailer x := handle_trailer me f.rx x hxt
      by_cases hf : a.msg.ForMe me
      · have hs : f.rx.inc a.msg.key = some (y :: l') := by
          rw [hinc]; exact ⟨⟨hf, by simp, hpre, hlc⟩, rfl⟩
        have han : announced (y :: l') = a.msg.params.length := by
          rw [hy]; exact Nat.mod_eq_of_lt hp.few
        simp only [Rx.trailer, hxk, hs, han] at hh
        by_cases hc : a.msg.params.length < (y :: l' ++ [x]).length
        · rw [if_pos hc] at hh
          have hcomp : a.got = a.msg.packets := hg.trans (hfull.2 hc)
          refine fin _ _ hh i.ok (fun k hk => by simp [Rx.set, hk]) (fun v => ?_) (fun z => ?_)
          · simp only [Rx.set, if_true, reduceCtorEq, false_iff, not_and]
            exact fun h => absurd hcomp h.2.2.2
          · simp only [Option.some.injEq, Arrival.Complete, hcomp, true_and, hf]
            rw [hfull.2 hc]
            exact ⟨fun h => h.symm, fun h => h.symm⟩
        · rw [if_neg hc] at hh
          have hcomp : a.got ≠ a.msg.packets := by rw [hg]; exact fun e => hc (hfull.1 e)
          refine fin _ _ hh i.ok (fun k hk => by simp [Rx.set, hk]) (fun v => ?_) (fun z => ?_)
          · simp only [Rx.set, if_true, Option.some.injEq]
            constructor
            · rintro rfl
              exact ⟨⟨hf, by rw [hg]; simp, by rw [hg]; exact ho, hcomp⟩, hg.symm⟩
            · rintro ⟨_, h⟩; rw [h, hg]
          · simp only [reduceCtorEq, Arrival.Complete, false_iff, not_and]
            exact fun h => absurd h hcomp
      · have hs : f.rx.inc x.key = none := by
          rw [hxk]
          cases h : f.rx.inc a.msg.key with
          | none => rfl
          | some v => exact absurd ((hinc v).1 h).1.1 hf
        simp only [Rx.trailer, hs] at hh
        refine fin _ _ hh i.ok (fun _ _ => rfl) (fun v => ?_) (fun z => ?_)
        · rw [← hxk, hs]
          simp only [reduceCtorEq, false_iff, not_and]
          exact fun h => absurd h.1 hf
        · simp only [reduceCtorEq, false_iff, not_and]
          exact fun _ h => absurd h hf
  · -- we came in the middle
    rw [hg] at ho
    have hxt : x.kind = .trailer := tail_kind (List.mem_of_mem_drop (ho.subset (by simp)))
    have hh : f.rx.handle me x = f.rx.trailer x := handle_trailer me f.rx x hxt
    have hnp : ¬ a.got <+: a.msg.packets := by rw [hg]; exact late_not_prefix hp ho (by simp)
    have hs : f.rx.inc x.key = none := by
      rw [hxk]
      cases h : f.rx.inc a.msg.key with
      | none => rfl
      | some v =>
        obtain ⟨⟨_, h2, h3, _⟩, _⟩ := (hinc v).1 h
        exact absurd h3 (late_not_prefix hp ((List.prefix_append l [x]).trans ho) h2)
    simp only [Rx.trailer, hs] at hh
    refine fin _ _ hh i.ok (fun _ _ => rfl) (fun v => ?_) (fun z => ?_)
    · rw [← hxk, hs]
      simp only [reduceCtorEq, false_iff, not_and]
      exact fun h => absurd h.2.2.1 hnp
    · simp only [reduceCtorEq, Arrival.Complete, false_iff, not_and]
      exact fun h => absurd (h ▸ List.prefix_refl _) hnp

theorem inv_run (me : String) (as : List (Arrival B)) (hp : ∀ a ∈ as, a.msg.Proper ∧ a.Ok) (hk : (as.map (fun a => a.msg.key)).Nodup)
    (arr : List (Packet B)) (h : Interleaving (as.map (fun a => a.got)) arr) : Inv me (Facade.run me {} arr) as := by
  generalize hls : as.map (fun a => a.got) = ls at h
  induction h generalizing as with
  | none ls h =>
    subst hls
    have he : ∀ a ∈ as, a.got = [] := fun a ha => h _ (List.mem_map.2 ⟨a, ha, rfl⟩)
    refine ⟨rfl, fun k v => ?_, fun x => ?_, by simp [Facade.run]⟩
    · simp only [Facade.run, List.foldl_nil, reduceCtorEq, false_iff, not_exists, not_and]
      exact fun a ha _ hpd => absurd (he a ha) hpd.2.1
    · simp only [Facade.run, List.foldl_nil, List.not_mem_nil, false_iff, not_exists, not_and]
      intro a ha hc
      have h1 : a.got = a.msg.packets := hc
      rw [he a ha] at h1
      simp [Out.packets] at h1
  | last pre post l x r h ih =>
    obtain ⟨as1, rest, rfl, h1, h2⟩ := List.map_eq_append_iff.1 hls
    obtain ⟨a, as2, rfl, h3, h4⟩ := List.map_eq_cons_iff.1 h2
    have h3 : a.got = l ++ [x] := h3
    have ok := (hp a (by simp)).2
    have := ih (as1 ++ { a with got := l } :: as2)
      (by
        intro b hb
        simp only [List.mem_append, List.mem_cons] at hb
        rcases hb with hb | rfl | hb
        · exact hp b (by simp [hb])
        · refine ⟨(hp a (by simp)).1, ?_⟩
          rcases ok with h | ⟨k, h⟩
          · left; rw [h3] at h; exact (List.prefix_append l [x]).trans h
          · right; refine ⟨k, ?_⟩; rw [h3] at h; exact (List.prefix_append l [x]).trans h
        · exact hp b (by simp [hb]))
      (by simpa using hk) (by simp [h1, h4])
    have hr : Facade.run me {} (r ++ [x]) = (Facade.run me {} r).packet me x := by simp [Facade.run]
    rw [hr]
    exact inv_step this hk (hp a (by simp)).1 h3 ok

/-- **C98**: packets of any number of messages (with different identifiers, at most 65535 parameters each) arrive, interleaved in any way; of each message
a beginning, or, if we started listening in its middle, some without the leader. Then exactly those messages that have arrived completely, and are for us, have been
delivered, each once, with all its parameters in order; no assertion fails; and nothing is kept except of messages of which a part is missing. -/
theorem c98_whole_partial (me : String) (as : List (Arrival B)) (hp : ∀ a ∈ as, a.msg.Proper ∧ a.Ok) (hk : (as.map (fun a => a.msg.key)).Nodup)
    (arr : List (Packet B)) (h : Interleaving (as.map (fun a => a.got)) arr) :
    (Facade.run me {} arr).rx.failed = false ∧
    (∀ (x : List (Packet B)), x ∈ (Facade.run me {} arr).delivered ↔ ∃ a ∈ as, a.Complete ∧ a.msg.ForMe me ∧ x = a.msg.packets) ∧
    (Facade.run me {} arr).delivered.Nodup ∧
    ((∀ a ∈ as, a.Complete) → ∀ (k : Key), (Facade.run me {} arr).rx.inc k = none) := by
  have i := inv_run me as hp hk arr h
  refine ⟨i.ok, i.mem, i.nodup, fun hc k => ?_⟩
  cases hi : (Facade.run me {} arr).rx.inc k with
  | none => rfl
  | some v =>
    obtain ⟨a, ha, _, hpd, _⟩ := (i.inc k v).1 hi
    exact absurd (hc a ha) hpd.2.2.2

/-- Two commands and a lookup, interleaved; the second command is heard without its leader. -/
theorem c98_example :
    let m1 : Out Nat := ⟨.command, "a", 1, 10, [11, 12]⟩
    let m2 : Out Nat := ⟨.command, "b", 1, 20, [21]⟩
    let m3 : Out Nat := ⟨.lookupNow, "a", 2, 30, []⟩
    ((Facade.run "me" {} [m1.leader, ⟨.trailer, 0, 1, "b", 21⟩, ⟨.trailer, 0, 1, "a", 11⟩, m3.leader, ⟨.trailer, 1, 1, "a", 12⟩]).delivered =
      [m3.packets, m1.packets]) ∧
    Interleaving [m1.packets, m2.packets.tail, m3.packets] [m1.leader, ⟨.trailer, 0, 1, "b", 21⟩, ⟨.trailer, 0, 1, "a", 11⟩, m3.leader, ⟨.trailer, 1, 1, "a", 12⟩] := by
  refine ⟨by decide +kernel, ?_⟩
  let p0 : Packet Nat := ⟨.command, 2, 1, "a", 10⟩
  let p1 : Packet Nat := ⟨.trailer, 0, 1, "a", 11⟩
  let p2 : Packet Nat := ⟨.trailer, 1, 1, "a", 12⟩
  let q : Packet Nat := ⟨.trailer, 0, 1, "b", 21⟩
  let r : Packet Nat := ⟨.lookupNow, 0, 2, "a", 30⟩
  have h1 : Interleaving [[p0], [], []] [p0] := .last [] [[], []] [] p0 [] (.none _ (by simp))
  have h2 : Interleaving [[p0], [q], []] [p0, q] := .last [[p0]] [[]] [] q [p0] h1
  have h3 : Interleaving [[p0, p1], [q], []] [p0, q, p1] := .last [] [[q], []] [p0] p1 [p0, q] h2
  have h4 : Interleaving [[p0, p1], [q], [r]] [p0, q, p1, r] := .last [[p0, p1], [q]] [] [] r [p0, q, p1] h3
  exact Interleaving.last [] [[q], [r]] [p0, p1] p2 [p0, q, p1, r] h4

/-- **C98**, what is missing, first: a message with 65536 parameters is announced with none; the receiver delivers the leader alone, and the parameters are lost. -/
theorem c98_count_overflows (me : String) (m : Out B) (hk : m.kind = .command ∨ m.kind = .telemetry) (hl : m.params.length = 65536) :
    (Facade.run me {} m.packets).delivered = [[m.leader]] ∧ m.packets.length = 65537 := by
  have hc : m.leader.count = 0 := by simp [Out.leader, hl]
  have hkind : m.leader.kind = m.kind := rfl
  have key : ∀ (ps : List (Packet B)) (d : List (List (Packet B))), (∀ p ∈ ps, p.kind = .trailer) →
      Facade.run me ⟨{}, d⟩ ps = ⟨{}, d⟩ := by
    intro ps
    induction ps with
    | nil => intro d _; rfl
    | cons p r ih =>
      intro d h
      have hp : p.kind = .trailer := h p (by simp)
      have : Facade.packet me ⟨{}, d⟩ p = ⟨{}, d⟩ := by simp [Facade.packet, Rx.handle, hp, Rx.trailer]
      show Facade.run me (Facade.packet me ⟨{}, d⟩ p) r = _
      rw [this]
      exact ih d (fun q hq => h q (by simp [hq]))
  have h1 : Facade.packet me ({} : Facade B) m.leader = ⟨{}, [[m.leader]]⟩ := by
    rcases hk with hk | hk <;> simp [Facade.packet, Rx.handle, hkind, hk, hc, Rx.leader]
  refine ⟨?_, by rw [packets_length, hl]⟩
  show (Facade.run me (Facade.packet me {} m.leader) (m.trailers 0 m.params)).delivered = _
  rw [h1, key _ _ (fun p hp => (trailers_mem m _ _ p hp).1)]

/-- There is such a message. -/
theorem c98_count_overflows_example : ∃ (m : Out Nat), m.kind = .telemetry ∧ m.params.length = 65536 :=
  ⟨⟨.telemetry, "a", 1, 0, List.replicate 65536 7⟩, rfl, by simp only [List.length_replicate]⟩

/-- **C98**, what is missing, second: if the identifier is used again while a message is incomplete (its sender has been restarted, and counts from 1 again), an assertion
fails and nothing is delivered any more. -/
theorem c98_restarted_sender_fails (me : String) (m n : Out B) (hm : m.ForMe me) (hp : m.Proper) (hn : n.Proper) (hnm : n.ForMe me)
    (h1 : m.params ≠ []) (h2 : n.params ≠ []) (hk : n.key = m.key) (rest : List (Packet B)) :
    (Facade.run me {} (m.leader :: n.leader :: rest)).delivered = [] ∧ (Facade.run me {} (m.leader :: n.leader :: rest)).rx.failed = true := by
  have e1 := (handle_leader me ({} : Rx B) m hp rfl).2.1 hm h1
  have hc : n.leader.count = n.params.length := Nat.mod_eq_of_lt hn.few
  have hz : n.params.length ≠ 0 := fun h => h2 (List.length_eq_zero_iff.1 h)
  have hkey : n.leader.key = m.key := hk
  have hl : (({} : Rx B).set m.key (some [m.leader])).leader n.leader = ({ ({} : Rx B).set m.key (some [m.leader]) with failed := true }, none) := by
    simp [Rx.leader, hkey, Rx.set]
  have hkind : n.leader.kind = n.kind := rfl
  have e2 : (({} : Rx B).set m.key (some [m.leader])).handle me n.leader = ({ ({} : Rx B).set m.key (some [m.leader]) with failed := true }, none) := by
    simp only [Rx.handle, hkind]
    cases h : n.kind with
    | command => simp [hc, hz, hl]
    | lookupNow => simp [hc, hz, hl]
    | plannerUpdate => exact hl
    | telemetry => exact hl
    | returnValues to => simp [hnm to h, hl]
    | single k => exact absurd (hn.single k h) h2
    | trailer => exact absurd h hn.kind.1
    | invalid => exact absurd h hn.kind.2
  have stuck : ∀ (ps : List (Packet B)) (f : Facade B), f.rx.failed = true → Facade.run me f ps = f := by
    intro ps
    induction ps with
    | nil => intro f _; rfl
    | cons p r ih =>
      intro f h
      have : Facade.packet me f p = f := by simp [Facade.packet, h]
      show Facade.run me (Facade.packet me f p) r = f
      rw [this]; exact ih f h
  have h3 : Facade.packet me ({} : Facade B) m.leader = ⟨({} : Rx B).set m.key (some [m.leader]), []⟩ := by simp [Facade.packet, e1]
  have h4 : Facade.packet me ⟨({} : Rx B).set m.key (some [m.leader]), []⟩ n.leader = ⟨{ ({} : Rx B).set m.key (some [m.leader]) with failed := true }, []⟩ := by
    have hf : (({} : Rx B).set m.key (some [m.leader])).failed = false := rfl
    simp [Facade.packet, hf, e2]
  have h5 : Facade.run me {} (m.leader :: n.leader :: rest) = ⟨{ ({} : Rx B).set m.key (some [m.leader]) with failed := true }, []⟩ := by
    show Facade.run me (Facade.packet me (Facade.packet me {} m.leader) n.leader) rest = _
    rw [h3, h4]; exact stuck _ _ rfl
  rw [h5]; exact ⟨rfl, rfl⟩

/-- There are such messages. -/
theorem c98_restarted_sender_example :
    let m : Out Nat := ⟨.command, "a", 1, 0, [1, 2]⟩
    m.ForMe "me" ∧ m.Proper ∧ m.params ≠ [] := by
  refine ⟨fun _ h => by simp at h, ⟨by simp, fun n h => by simp at h, by simp⟩, by simp⟩

/-! ### Subscriptions -/

theorem snocInd {α : Type} {P : List α → Prop} (nil : P []) (snoc : ∀ (l : List α) (a : α), P l → P (l ++ [a])) (l : List α) : P l := by
  have h : ∀ r : List α, P r.reverse := by
    intro r
    induction r with
    | nil => exact nil
    | cons a r ih => rw [List.reverse_cons]; exact snoc _ a ih
  simpa using h l.reverse

/-- The subscriptions after a history. -/
def Subs.run (acts : List (SubAct B)) : Subs B := acts.foldl Subs.act {}

theorem sinceReset_snoc (acts : List (SubAct B)) (a : SubAct B) :
    sinceReset (acts ++ [a]) = match a with | .unsubscribeAll => [] | _ => sinceReset acts ++ [a] := by
  cases a <;> simp [sinceReset]

/-- **C99**: as long as no single listener is removed, every message is passed first to those who subscribed to everything, then to those who subscribed
to its type, each in the order of, and as often as, they subscribed since all were last removed; to nobody else. -/
theorem c99_subscribers_partial (acts : List (SubAct B)) (hn : ∀ (l : Nat), .unsubscribe l ∉ acts) (m : List (Packet B)) :
    (Subs.run (acts ++ [.deliver m])).heard = (Subs.run acts).heard ++ (toAll acts ++ toType (msgType m) acts).map (fun l => (l, m)) := by
  have key : (Subs.run acts).all = toAll acts ∧ ∀ t, (Subs.run acts).byType t = toType t acts := by
    induction acts using snocInd with
    | nil => exact ⟨rfl, fun _ => rfl⟩
    | snoc acts a ih =>
      obtain ⟨h1, h2⟩ := ih (fun l hl => hn l (by simp [hl]))
      have hr : Subs.run (acts ++ [a]) = (Subs.run acts).act a := by simp [Subs.run]
      rw [hr]
      cases a with
      | unsubscribe l => exact absurd (by simp) (hn l)
      | subscribeAll l => simp [Subs.act, toAll, toType, sinceReset_snoc] at *; exact ⟨h1, h2⟩
      | subscribe l u =>
        simp only [Subs.act, toAll, toType, sinceReset_snoc, List.filterMap_append] at *
        refine ⟨by simp [h1], fun t => ?_⟩
        by_cases e : t = u
        · subst e; simp [h2]
        · simp [h2, e, Ne.symm e]
      | unsubscribeAll => exact ⟨by simp [Subs.act, toAll, sinceReset_snoc], fun t => by simp [Subs.act, toType, sinceReset_snoc]⟩
      | deliver m => simp [Subs.act, toAll, toType, sinceReset_snoc] at *; exact ⟨h1, h2⟩
  have hr : Subs.run (acts ++ [.deliver m]) = (Subs.run acts).act (.deliver m) := by simp [Subs.run]
  rw [hr]
  simp only [Subs.act, key.1, key.2]

/-- Nothing else is ever passed to a listener. -/
theorem c99_only_delivered (s : Subs B) (a : SubAct B) (h : ∀ (m : List (Packet B)), a ≠ .deliver m) : (s.act a).heard = s.heard := by
  cases a with
  | deliver m => exact absurd rfl (h m)
  | _ => rfl

theorem c99_example :
    let m : List (Packet Nat) := [⟨.telemetry, 0, 1, "a", 5⟩]
    (Subs.run [.subscribe 1 3, .subscribeAll 2, .subscribe 3 0, .subscribe 4 3, .deliver m]).heard = [(2, m), (1, m), (4, m)] := by
  decide +kernel

/-- **C99**, what is missing: removing a listener from the listeners to a type has no effect whatsoever. -/
theorem c99_unsubscribe_type_no_effect (s : Subs B) (l : Nat) (h : l ∉ s.all) : s.act (.unsubscribe l) = s := by
  have hf : s.all.filter (fun y => y ≠ l) = s.all := List.filter_eq_self.2 (fun y hy => by simpa using fun e : y = l => h (e ▸ hy))
  simp only [Subs.act, stdRemove, hf, List.drop_length, List.append_nil]

/-- Nor has removing the one that was the last to subscribe to everything. -/
theorem c99_unsubscribe_last_no_effect (s : Subs B) (l : Nat) (pre : List Nat) (h : s.all = pre ++ [l]) (hp : l ∉ pre) : s.act (.unsubscribe l) = s := by
  have hf : (pre ++ [l]).filter (fun y => y ≠ l) = pre := by
    rw [List.filter_append, List.filter_eq_self.2 (fun y hy => by simpa using fun e : y = l => hp (e ▸ hy))]; simp
  simp only [Subs.act, stdRemove, h, hf, List.drop_left]
  cases s; simp_all

/-- Removing any other listener to everything makes the last one hear everything twice. -/
theorem c99_unsubscribe_duplicates (s : Subs B) (l y : Nat) (pre post : List Nat) (h : s.all = pre ++ l :: (post ++ [y])) (hp : l ∉ pre) (hq : l ∉ post) (hy : y ≠ l)
    (m : List (Packet B)) :
    ((s.act (.unsubscribe l)).act (.deliver m)).heard =
      s.heard ++ (pre ++ post ++ [y, y] ++ s.byType (msgType m)).map (fun x => (x, m)) := by
  have h1 : pre.filter (fun y => y ≠ l) = pre := List.filter_eq_self.2 (fun y hy => by simpa using fun e : y = l => hp (e ▸ hy))
  have h2 : post.filter (fun y => y ≠ l) = post := List.filter_eq_self.2 (fun y hy => by simpa using fun e : y = l => hq (e ▸ hy))
  have hf : (pre ++ l :: (post ++ [y])).filter (fun y => y ≠ l) = pre ++ post ++ [y] := by
    rw [List.filter_append, h1, List.filter_cons, List.filter_append, h2]; simp [hy]
  have hd : (pre ++ l :: (post ++ [y])).drop (pre ++ post ++ [y]).length = [y] := by
    have : pre ++ l :: (post ++ [y]) = (pre ++ l :: post) ++ [y] := by simp
    rw [this, List.drop_append_of_le_length (by simp)]
    rw [List.drop_eq_nil_of_le (by simp)]; rfl
  have ha : (s.act (.unsubscribe l)).all = pre ++ post ++ [y, y] := by
    show stdRemove s.all l = _
    rw [h, stdRemove, hf, hd]; simp
  show s.heard ++ ((s.act (.unsubscribe l)).all ++ s.byType (msgType m)).map _ = _
  rw [ha]

/-- The number of calls for a message is never reduced by removing a listener. -/
theorem c99_unsubscribe_calls (s : Subs B) (l : Nat) (m : List (Packet B)) :
    ((s.act (.unsubscribe l)).act (.deliver m)).heard.length = (s.act (.deliver m)).heard.length := by
  have h : (stdRemove s.all l).length = s.all.length := by
    simp only [stdRemove, List.length_append, List.length_drop]
    have := List.length_filter_le (fun y => decide (y ≠ l)) s.all
    omega
  simp [Subs.act, h]

/-- Messages of different kinds are of different types, so that a subscription to one kind gets no others (return values for different programs are of one type). -/
theorem c99_types (k k' : Kind) (h : k.type = k'.type) : k = k' ∨ ∃ a b, k = .returnValues a ∧ k' = .returnValues b := by
  cases k <;> cases k' <;> simp [Kind.type] at h ⊢ <;> omega

/-- After a message of no known type, nothing is delivered any more. -/
theorem c98_invalid_fails (me : String) (f : Facade B) (p : Packet B) (hk : p.kind = .invalid) (rest : List (Packet B)) :
    (f.run me (p :: rest)).rx.failed = true ∧ (f.run me (p :: rest)).delivered = f.delivered := by
  have key : ∀ (l : List (Packet B)) (g : Facade B), g.rx.failed = true → g.run me l = g := by
    intro l
    induction l with
    | nil => intro g _; rfl
    | cons a l ih => intro g hg; simp only [Facade.run, List.foldl_cons]; rw [show g.packet me a = g by simp [Facade.packet, hg]]; exact ih g hg
  have e : (f.packet me p).rx.failed = true ∧ (f.packet me p).delivered = f.delivered := by
    cases hf : f.rx.failed <;> simp [Facade.packet, hf, Rx.handle, hk]
  have : f.run me (p :: rest) = (f.packet me p).run me rest := rfl
  rw [this, key rest _ e.1]; exact e

end Verif.Ipc
