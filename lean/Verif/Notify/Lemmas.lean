import Verif.Notify.Model

/-! Adding and removing listeners. -/
namespace Verif.Notify

/-- Is it a `Propagator`? -/
def Kind.prop : Kind → Bool
  | .func _ _ | .lookup _ _ _ => true
  | _ => false

/-- Where a listener added to `e` is kept, if anywhere. -/
def Graph.place (G : Graph) (e : Nat) : Option Nat :=
  match G.kind e with
  | .inert => none
  | .proxy t => some t
  | _ => some e

/-- What a propagator does to other expressions when its last listener goes: `true` is `removeListener`. -/
def Graph.leaving (G : Graph) (e : Nat) : List (Bool × Nat) :=
  match G.kind e with
  | .lookup n ps t => (G.frontier e).map (fun c => (true, c)) ++ ps.map (fun c => (decide (ps.length ≤ 4), c)) ++
      (true, n) :: t.toList.map (fun c => (true, c))
  | _ => (G.frontier e).map (fun c => (true, c))

def Graph.op (G : Graph) (e : Nat) (s : Net) (o : Bool × Nat) : Net :=
  if o.1 then G.remove o.2 (.expr e) s else G.add o.2 (.expr e) s

/-- What happens to a propagator's own listening when it gets its first listener. -/
def Graph.join (G : Graph) (q : Nat) (s : Net) : Net :=
  if (G.kind q).prop = true ∧ s.listeners q = [] then (G.hosts q).foldl (fun s c => G.add c (.expr q) s) s else s

/-- … and when it has lost the last. -/
def Graph.leave (G : Graph) (q : Nat) (s : Net) : Net :=
  if (G.kind q).prop = true ∧ s.listeners q = [] then (G.leaving q).foldl (G.op q) s else s

theorem Graph.place_le (G : Graph) {e q : Nat} (h : G.place e = some q) : q ≤ e := by
  unfold Graph.place at h
  split at h
  · simp at h
  · next t hk =>
    cases h
    exact Nat.le_of_lt (G.subs_lt e q (by rw [hk]; simp [Kind.subs]))
  · cases h; exact Nat.le_refl _

theorem Graph.place_self (G : Graph) {e q : Nat} (h : G.place e = some q) : G.place q = some q := by
  unfold Graph.place at h
  split at h
  · simp at h
  · next t hk =>
    cases h
    unfold Graph.place
    rw [G.proxy_node e q hk]
  · next hk1 hk2 => cases h; unfold Graph.place; split <;> simp_all

theorem Graph.leaving_lt (G : Graph) (e : Nat) : ∀ o ∈ G.leaving e, o.2 < e := by
  intro o ho
  unfold Graph.leaving at ho
  split at ho
  · next n ps t hk =>
    simp only [List.mem_append, List.mem_cons, List.mem_map] at ho
    rcases ho with (⟨c, h, rfl⟩ | ⟨c, h, rfl⟩) | rfl | ⟨c, h, rfl⟩
    · exact G.frontier_lt e c h
    · exact G.subs_lt e c (by rw [hk]; simp [Kind.subs, h])
    · exact G.subs_lt e n (by rw [hk]; simp [Kind.subs])
    · refine G.subs_lt e c (by rw [hk]; simp only [Kind.subs, List.mem_append]; exact .inr h)
  · obtain ⟨c, h, rfl⟩ := List.mem_map.1 ho
    exact G.frontier_lt e c h

theorem Graph.add_eq (G : Graph) (e : Nat) (l : Listener) (s : Net) :
    G.add e l s = match G.place e with | none => s | some q => (G.join q s).note q l := by
  have key : ∀ e, (∀ t, G.kind e ≠ .proxy t) → G.add e l s = match G.place e with | none => s | some q => (G.join q s).note q l := by
    intro e hp
    rw [Graph.add]
    split
    · next hk => simp [Graph.place, hk]
    · next t hk => exact absurd hk (hp t)
    · next hk => simp [Graph.place, hk, Graph.join, Kind.prop]
    · next hk => simp [Graph.place, hk, Graph.join, Kind.prop]
    · next hk => simp [Graph.place, hk, Graph.join, Kind.prop]
    · next hk => simp [Graph.place, hk, Graph.join, Kind.prop]
  by_cases hp : ∃ t, G.kind e = .proxy t
  · obtain ⟨t, ht⟩ := hp
    have hn := G.proxy_node e t ht
    have e1 : G.add e l s = G.add t l s := by
      rw [Graph.add]
      split <;> simp_all
    rw [e1, key t (by rw [hn]; simp)]
    simp [Graph.place, ht, hn]
  · exact key e (fun t h => hp ⟨t, h⟩)

theorem Graph.remove_eq (G : Graph) (e : Nat) (l : Listener) (s : Net) :
    G.remove e l s = match G.place e with | none => s | some q => G.leave q (s.forget q l) := by
  have key : ∀ e, (∀ t, G.kind e ≠ .proxy t) → G.remove e l s = match G.place e with | none => s | some q => G.leave q (s.forget q l) := by
    intro e hp
    rw [Graph.remove]
    split
    · next hk => simp [Graph.place, hk]
    · next t hk => exact absurd hk (hp t)
    · next hk => simp [Graph.place, hk, Graph.leave, Kind.prop]
    · next hk => simp [Graph.place, hk, Graph.leave, Kind.prop]
    · next hk => simp [Graph.place, hk, Graph.leave, Kind.prop, Graph.leaving, List.foldl_map, Graph.op]
    · next n ps t hk =>
      simp only [Graph.place, hk, Graph.leave, Kind.prop, Graph.leaving, List.foldl_append, List.foldl_map, Graph.op,
        List.foldl_cons, true_and, if_true, List.foldl_subtype, List.unattach_attach]
      by_cases hl : ps.length ≤ 4
      · simp [hl]
      · simp [hl]
  by_cases hp : ∃ t, G.kind e = .proxy t
  · obtain ⟨t, ht⟩ := hp
    have hn := G.proxy_node e t ht
    have e1 : G.remove e l s = G.remove t l s := by
      rw [Graph.remove]
      split <;> simp_all
    rw [e1, key t (by rw [hn]; simp)]
    simp [Graph.place, ht, hn]
  · exact key e (fun t h => hp ⟨t, h⟩)

theorem mem_note (s : Net) (e : Nat) (l : Listener) (i : Nat) (x : Listener) :
    x ∈ (s.note e l).listeners i ↔ x ∈ s.listeners i ∨ (i = e ∧ x = l) := by
  unfold Net.note
  split
  · next h =>
    refine ⟨.inl, fun h' => ?_⟩
    rcases h' with h' | ⟨rfl, rfl⟩
    · exact h'
    · exact h
  · simp only
    split
    · next h => subst h; simp
    · next h => simp [h]

theorem mem_forget {s : Net} (hn : ∀ i, (s.listeners i).Nodup) (e : Nat) (l : Listener) (i : Nat) (x : Listener) :
    x ∈ (s.forget e l).listeners i ↔ x ∈ s.listeners i ∧ ¬ (i = e ∧ x = l) := by
  unfold Net.forget
  simp only
  split
  · next h => subst h; rw [(hn i).mem_erase_iff]; simp [and_comm]
  · next h => simp [h]

theorem nodup_note {s : Net} (hn : ∀ i, (s.listeners i).Nodup) (e : Nat) (l : Listener) :
    ∀ i, ((s.note e l).listeners i).Nodup := by
  intro i
  unfold Net.note
  split
  · exact hn i
  · next h =>
    simp only
    split
    · next h' =>
      rw [List.nodup_append]
      refine ⟨hn e, by simp, fun a ha b hb => ?_⟩
      rw [List.mem_singleton.1 hb]
      exact fun h'' => h (h'' ▸ ha)
    · exact hn i

theorem nodup_forget {s : Net} (hn : ∀ i, (s.listeners i).Nodup) (e : Nat) (l : Listener) :
    ∀ i, ((s.forget e l).listeners i).Nodup := by
  intro i
  unfold Net.forget
  simp only
  split
  · exact (hn e).erase l
  · exact hn i

/-- Propagators with listeners listen, except those in `X`. -/
def Up (G : Graph) (X : Nat → Prop) (s : Net) : Prop :=
  ∀ p, ¬ X p → (G.kind p).prop = true → s.listeners p ≠ [] → ∀ c ∈ G.hosts p, ∀ q, G.place c = some q →
    .expr p ∈ s.listeners q

/-- Only propagators with listeners listen, except those in `X`. -/
def Down (G : Graph) (X : Nat → Prop) (s : Net) : Prop :=
  ∀ p, ¬ X p → ∀ q, .expr p ∈ s.listeners q →
    (G.kind p).prop = true ∧ s.listeners p ≠ [] ∧ ∃ c ∈ G.hosts p, G.place c = some q

def Nd (s : Net) : Prop := ∀ i, (s.listeners i).Nodup

/-- Is it a listener whose entries are accounted for from outside: not an expression, or one in `X`? -/
def Free (X : Nat → Prop) : Listener → Prop
  | .ext _ => True
  | .expr p => X p

/-- The effect of `add` on the listeners, or of several, all of `x ∈ L`. -/
structure Added (G : Graph) (X : Nat → Prop) (e : Nat) (W : Nat → Listener → Prop) (s s' : Net) : Prop where
  mono : ∀ i x, x ∈ s.listeners i → x ∈ s'.listeners i
  above : ∀ i, e < i → s'.listeners i = s.listeners i
  has : ∀ i x, W i x → x ∈ s'.listeners i
  new : ∀ i x, Free X x → x ∈ s'.listeners i → x ∈ s.listeners i ∨ W i x
  up : Up G X s → Up G X s'
  down : Down G X s → Down G X s'
  nd : Nd s → Nd s'
  count : s'.count = s.count
  fault : s'.fault = s.fault

theorem Up.mono {G : Graph} {X Y : Nat → Prop} {s : Net} (h : Up G X s) (hXY : ∀ p, X p → Y p) : Up G Y s :=
  fun p hp => h p (fun hx => hp (hXY p hx))

theorem Down.mono {G : Graph} {X Y : Nat → Prop} {s : Net} (h : Down G X s) (hXY : ∀ p, X p → Y p) : Down G Y s :=
  fun p hp => h p (fun hx => hp (hXY p hx))

/-- The listeners `e` gets. -/
def At (G : Graph) (e : Nat) (l : Listener) : Nat → Listener → Prop := fun i x => G.place e = some i ∧ x = l

theorem Added.refl (G : Graph) (X : Nat → Prop) (e : Nat) (s : Net) : Added G X e (fun _ _ => False) s s :=
  ⟨fun _ _ h => h, fun _ _ => rfl, fun _ _ h => h.elim, fun _ _ _ h => .inl h, fun h => h, fun h => h, fun h => h, rfl, rfl⟩

theorem Added.trans {G : Graph} {X : Nat → Prop} {e : Nat} {V W : Nat → Listener → Prop} {a b c : Net}
    (h : Added G X e V a b) (k : Added G X e W b c) : Added G X e (fun i x => V i x ∨ W i x) a c := by
  refine ⟨fun i x hx => k.mono i x (h.mono i x hx), fun i hi => (k.above i hi).trans (h.above i hi), fun i x hx => ?_,
    fun i x hf hx => ?_, fun u => k.up (h.up u), fun u => k.down (h.down u), fun u => k.nd (h.nd u),
    k.count.trans h.count, k.fault.trans h.fault⟩
  · rcases hx with hx | hx
    · exact k.mono i x (h.has i x hx)
    · exact k.has i x hx
  · rcases k.new i x hf hx with hx | hx
    · rcases h.new i x hf hx with hx | hx
      · exact .inl hx
      · exact .inr (.inl hx)
    · exact .inr (.inr hx)

theorem Added.weaken {G : Graph} {X : Nat → Prop} {e e' : Nat} {V W : Nat → Listener → Prop} {a b : Net}
    (h : Added G X e V a b) (he : e ≤ e') (hVW : ∀ i x, V i x ↔ W i x) : Added G X e' W a b :=
  ⟨h.mono, fun i hi => h.above i (by omega), fun i x hx => h.has i x ((hVW i x).2 hx),
    fun i x hf hx => (h.new i x hf hx).imp id (hVW i x).1, h.up, h.down, h.nd, h.count, h.fault⟩

/-- Several additions. -/
theorem added_fold (G : Graph) (X : Nat → Prop) (e : Nat) (l : Listener) (cs : List Nat)
    (ih : ∀ c ∈ cs, ∀ s, Added G X c (At G c l) s (G.add c l s)) (hcs : ∀ c ∈ cs, c ≤ e) : ∀ s,
    Added G X e (fun i x => ∃ c ∈ cs, At G c l i x) s (cs.foldl (fun s c => G.add c l s) s) := by
  induction cs with
  | nil => intro s; exact (Added.refl G X e s).weaken (Nat.le_refl e) (fun i x => by simp)
  | cons c cs ih' =>
    intro s
    have h1 := (ih c (by simp) s).weaken (hcs c (by simp)) (fun _ _ => Iff.rfl)
    have h2 := ih' (fun d hd => ih d (List.mem_cons_of_mem _ hd)) (fun d hd => hcs d (List.mem_cons_of_mem _ hd)) (G.add c l s)
    exact (h1.trans h2).weaken (Nat.le_refl e) (fun i x => by simp)

theorem add_added (G : Graph) (e : Nat) : ∀ (X : Nat → Prop) (l : Listener), Free X l → (∀ p, X p → e < p) → ∀ s,
    Added G X e (At G e l) s (G.add e l s) := by
  induction e using Nat.strongRecOn with
  | _ e ih =>
    intro X l hl hX s
    rw [Graph.add_eq]
    cases hp : G.place e with
    | none => exact (Added.refl G X e s).weaken (Nat.le_refl e) (fun i x => by simp [At, hp])
    | some q =>
      have hq := G.place_le hp
      have hXq : ¬ X q := fun h => by have := hX q h; omega
      simp only
      -- the state before the listener is noted
      have hW : ∀ i x, At G e l i x ↔ (i = q ∧ x = l) := by
        intro i x; unfold At; rw [hp]; simp [eq_comm]
      by_cases hj : (G.kind q).prop = true ∧ s.listeners q = []
      · have hJ : G.join q s = (G.hosts q).foldl (fun s c => G.add c (.expr q) s) s := by
          unfold Graph.join; rw [if_pos hj]
        obtain ⟨Y, hY⟩ : ∃ Y : Nat → Prop, Y = fun p => X p ∨ p = q := ⟨_, rfl⟩
        -- everything below `q`
        have hF : ∀ m, m + 1 = q → Added G Y m (fun i x => ∃ c ∈ G.hosts q, At G c (.expr q) i x) s (G.join q s) := by
          intro m hm
          rw [hJ]
          refine added_fold G Y m (.expr q) (G.hosts q) (fun c hc s => ?_) (fun c hc => ?_) s
          · have hcq := G.hosts_lt q c hc
            refine ih c (by omega) Y (.expr q) (by rw [hY]; exact .inr rfl) (fun p hp => ?_) s
            rw [hY] at hp
            rcases hp with hp | hp
            · have := hX p hp; omega
            · omega
          · have := G.hosts_lt q c hc; omega
        have hF0 : q = 0 → Added G Y 0 (fun i x => ∃ c ∈ G.hosts q, At G c (.expr q) i x) s (G.join q s) ∧ G.join q s = s := by
          intro h0
          have hn : G.hosts q = [] := by
            cases hh : G.hosts q with
            | nil => rfl
            | cons c cs => have := G.hosts_lt q c (by rw [hh]; simp); omega
          have : G.join q s = s := by rw [hJ, hn]; rfl
          rw [this]
          exact ⟨(Added.refl G Y 0 s).weaken (Nat.le_refl _) (fun i x => by simp [hn]), rfl⟩
        obtain ⟨A, hself⟩ : Added G Y q (fun i x => ∃ c ∈ G.hosts q, At G c (.expr q) i x) s (G.join q s) ∧
            (G.join q s).listeners q = s.listeners q := by
          by_cases h0 : q = 0
          · obtain ⟨h1, h2⟩ := hF0 h0
            exact ⟨h1.weaken (by omega) (fun _ _ => Iff.rfl), by rw [h2]⟩
          · have h1 := hF (q - 1) (by omega)
            exact ⟨h1.weaken (by omega) (fun _ _ => Iff.rfl), h1.above q (by omega)⟩
        generalize G.join q s = s1 at A hself
        have hYX : ∀ p, ¬ X p → p ≠ q → ¬ Y p := by
          intro p h1 h2 h3; rw [hY] at h3; rcases h3 with h3 | h3
          · exact h1 h3
          · exact h2 h3
        have hXY : ∀ p, X p → Y p := fun p h => by rw [hY]; exact .inl h
        have hl' : ∀ p, ¬ X p → l ≠ .expr p := by
          intro p h1 h2; rw [h2] at hl; exact h1 hl
        refine ⟨fun i x hx => ?_, fun i hi => ?_, fun i x hx => ?_, fun i x hf hx => ?_, fun u => ?_, fun u => ?_, fun u => nodup_note (A.nd u) q l, ?_, ?_⟩
        · rw [mem_note]; exact .inl (A.mono i x hx)
        · have h1 := A.above i (by omega)
          unfold Net.note
          split
          · exact h1
          · simp only; rw [if_neg (by omega)]; exact h1
        · rw [mem_note]; exact .inr ((hW i x).1 hx)
        · rw [mem_note] at hx
          rcases hx with hx | hx
          · rcases A.new i x (by cases x with | ext n => trivial | expr p => exact hXY p hf) hx with hx | ⟨c, hc, _, hx⟩
            · exact .inl hx
            · rw [hx] at hf; exact absurd hf hXq
          · exact .inr ((hW i x).2 hx)
        · -- up
          have U := A.up (u.mono hXY)
          intro p hp1 hp2 hp3 c hc q' hq'
          rw [mem_note]
          by_cases hpq : p = q
          · subst hpq
            exact .inl (A.has q' (.expr p) ⟨c, hc, hq', rfl⟩)
          · refine .inl (U p (hYX p hp1 hpq) hp2 (fun h => hp3 ?_) c hc q' hq')
            unfold Net.note
            split
            · exact h
            · simp only; rw [if_neg hpq]; exact h
        · -- down
          have D := A.down (u.mono hXY)
          intro p hp1 q' hm
          rw [mem_note] at hm
          rcases hm with hm | ⟨_, hm⟩
          · by_cases hpq : p = q
            · subst hpq
              refine ⟨hj.1, fun h => ?_, ?_⟩
              · have : l ∈ (s1.note p l).listeners p := (mem_note s1 p l p l).2 (.inr ⟨rfl, rfl⟩)
                rw [h] at this; simp at this
              · rcases A.new q' (.expr p) (by rw [hY]; exact .inr rfl) hm with hm | ⟨c, hc, hpl, _⟩
                · exact absurd hj.2 (u p hp1 q' hm).2.1
                · exact ⟨c, hc, hpl⟩
            · obtain ⟨h1, h2, h3⟩ := D p (hYX p hp1 hpq) q' hm
              refine ⟨h1, fun h => h2 ?_, h3⟩
              cases hh : s1.listeners p with
              | nil => rfl
              | cons x xs =>
                have : x ∈ (s1.note q l).listeners p := (mem_note s1 q l p x).2 (.inl (by rw [hh]; simp))
                rw [h] at this; simp at this
          · exact absurd hm.symm (hl' p hp1)
        · unfold Net.note; split <;> exact A.count
        · unfold Net.note; split <;> exact A.fault
      · have hJ : G.join q s = s := by unfold Graph.join; rw [if_neg hj]
        rw [hJ]
        have hl' : ∀ p, ¬ X p → l ≠ .expr p := by
          intro p h1 h2; rw [h2] at hl; exact h1 hl
        have hne : ∀ p, s.listeners p ≠ [] → (s.note q l).listeners p ≠ [] := by
          intro p h1 h2
          cases hh : s.listeners p with
          | nil => exact h1 hh
          | cons x xs =>
            have : x ∈ (s.note q l).listeners p := (mem_note s q l p x).2 (.inl (by rw [hh]; simp))
            rw [h2] at this; simp at this
        refine ⟨fun i x hx => (mem_note ..).2 (.inl hx), fun i hi => ?_, fun i x hx => (mem_note ..).2 (.inr ((hW i x).1 hx)),
          fun i x _ hx => ?_, fun u => ?_, fun u => ?_, fun u => nodup_note u q l, ?_, ?_⟩
        · unfold Net.note
          split
          · rfl
          · simp only; rw [if_neg (by omega)]
        · rw [mem_note] at hx
          exact hx.imp id (hW i x).2
        · intro p hp1 hp2 hp3 c hc q' hq'
          rw [mem_note]
          refine .inl (u p hp1 hp2 ?_ c hc q' hq')
          intro h
          by_cases hpq : p = q
          · rw [hpq] at h hp2; exact hj ⟨hp2, h⟩
          · apply hp3
            unfold Net.note
            split
            · exact h
            · simp only; rw [if_neg hpq]; exact h
        · intro p hp1 q' hm
          rw [mem_note] at hm
          rcases hm with hm | ⟨_, hm⟩
          · obtain ⟨h1, h2, h3⟩ := u p hp1 q' hm
            exact ⟨h1, hne p h2, h3⟩
          · exact absurd hm.symm (hl' p hp1)
        · unfold Net.note; split <;> rfl
        · unfold Net.note; split <;> rfl

end Verif.Notify
