import Verif.Notify.Remove
import Verif.Notify.Activate
import Verif.Notify.Spec

/-! Who is told of a change. -/
namespace Verif.Notify

/-- Expressions listen only at their hosts. -/
def Wired (G : Graph) (s : Net) : Prop :=
  ∀ p q, .expr p ∈ s.listeners q → (G.kind p).prop = true ∧ ∃ c ∈ G.hosts p, G.place c = some q

def Allowed (G : Graph) (e : Nat) : Listener → Prop
  | .ext _ => True
  | .expr p => (G.kind p).prop = true ∧ e ∈ G.hosts p

theorem note_wired {G : Graph} {s : Net} (h : Wired G s) {e q : Nat} {l : Listener} (hp : G.place e = some q)
    (ha : Allowed G e l) : Wired G (s.note q l) := by
  intro p i hm
  rcases (mem_note ..).1 hm with hm | ⟨rfl, rfl⟩
  · exact h p i hm
  · exact ⟨ha.1, e, ha.2, hp⟩

theorem foldl_inv {α : Type} {P : Net → Prop} {f : Net → α → Net} : ∀ (as : List α) (s : Net), P s →
    (∀ a ∈ as, ∀ s, P s → P (f s a)) → P (as.foldl f s)
  | [], _, h, _ => h
  | a :: as, s, h, hf => foldl_inv as (f s a) (hf a (by simp) s h) (fun b hb => hf b (List.mem_cons_of_mem _ hb))

theorem add_wired (G : Graph) (e : Nat) : ∀ l s, Allowed G e l → Wired G s → Wired G (G.add e l s) := by
  induction e using Nat.strongRecOn with
  | _ e ih =>
    intro l s ha hs
    rw [Graph.add_eq]
    cases hp : G.place e with
    | none => exact hs
    | some q =>
      refine note_wired ?_ hp ha
      unfold Graph.join
      split
      · next hj =>
        refine foldl_inv _ _ hs (fun c hc s hs => ?_)
        have h1 := G.hosts_lt q c hc
        have h2 := G.place_le hp
        exact ih c (by omega) (.expr q) s ⟨hj.1, hc⟩ hs
      · exact hs

theorem leaving_sub (G : Graph) (q : Nat) : ∀ o ∈ G.leaving q, o.2 ∈ G.hosts q := by
  intro o ho
  unfold Graph.leaving at ho
  unfold Graph.hosts
  split at ho
  · next n ps t hk =>
    rw [hk]
    simp only [List.mem_append, List.mem_cons, List.mem_map] at ho ⊢
    rcases ho with (⟨c, h, rfl⟩ | ⟨c, h, rfl⟩) | rfl | ⟨c, h, rfl⟩
    · exact .inr h
    · exact .inl (.inr (.inr h))
    · exact .inl (.inr (.inl rfl))
    · exact .inl (.inl h)
  · next hk =>
    obtain ⟨c, h, rfl⟩ := List.mem_map.1 ho
    split
    · next n ps t h => exact absurd h (hk n ps t)
    · exact h

theorem forget_wired {G : Graph} {s : Net} (h : Wired G s) (q : Nat) (l : Listener) : Wired G (s.forget q l) := by
  intro p i hm
  refine h p i ?_
  unfold Net.forget at hm
  simp only at hm
  split at hm
  · next hi => subst hi; exact List.mem_of_mem_erase hm
  · exact hm

theorem remove_wired (G : Graph) (e : Nat) : ∀ l s, Wired G s → Wired G (G.remove e l s) := by
  induction e using Nat.strongRecOn with
  | _ e ih =>
    intro l s hs
    rw [Graph.remove_eq]
    cases hp : G.place e with
    | none => exact hs
    | some q =>
      simp only
      unfold Graph.leave
      split
      · next hj =>
        refine foldl_inv _ _ (forget_wired hs q l) (fun o ho s hs => ?_)
        have h1 := G.leaving_lt q o ho
        have h2 := G.place_le hp
        unfold Graph.op
        split
        · exact ih o.2 (by omega) (.expr q) s hs
        · exact add_wired G o.2 (.expr q) s ⟨hj.1, leaving_sub G q o ho⟩ hs
      · exact forget_wired hs q l

/-- What holds of the listeners after any history. -/
structure Wiring (G : Graph) (s : Net) : Prop where
  nd : Nd s
  up : Up G (fun _ => False) s
  wired : Wired G s
  down : G.Small → Down G (fun _ => False) s

theorem wiring_start (G : Graph) : Wiring G start :=
  ⟨fun _ => by simp [start], fun _ _ _ h => by simp [start] at h, fun _ _ h => by simp [start] at h,
    fun _ _ _ _ h => by simp [start] at h⟩

theorem Wiring.of_listeners {G : Graph} {s s' : Net} (h : Wiring G s) (e : s'.listeners = s.listeners) : Wiring G s' := by
  refine ⟨fun i => by rw [e]; exact h.nd i, ?_, ?_, ?_⟩
  · intro p; rw [e]; exact h.up p
  · intro p; rw [e]; exact h.wired p
  · intro hs p; rw [e]; exact h.down hs p

theorem wiring_step (G : Graph) (s : Net) (ev : Ev) (h : Wiring G s) : Wiring G (G.step s ev) := by
  cases ev with
  | listen e n =>
    have A := add_added G e (fun _ => False) (.ext n) trivial (fun _ h => h.elim) s
    exact ⟨A.nd h.nd, A.up h.up, add_wired G e _ s trivial h.wired, fun hs => A.down (h.down hs)⟩
  | unlisten e n =>
    have R := remove_removed G e (fun _ => False) (.ext n) trivial (fun _ h => h.elim) s h.nd
    exact ⟨R.nd, R.up h.up, remove_wired G e _ s h.wired, fun hs => R.down hs (h.down hs)⟩
  | activate e => exact h.of_listeners (activate_still G e s).listeners
  | deactivate e => exact h.of_listeners (deactivate_still G e s).listeners

theorem run_snoc (G : Graph) (es : List Ev) (ev : Ev) : G.run (es ++ [ev]) = G.step (G.run es) ev := by
  simp [Graph.run]

/-- Induction on a history, from its end. -/
theorem snoc_induction {P : List Ev → Prop} (h0 : P []) (h1 : ∀ es ev, P es → P (es ++ [ev])) : ∀ es, P es := by
  intro es
  have : ∀ n (es : List Ev), es.length = n → P es := by
    intro n
    induction n with
    | zero => intro es h; rw [List.length_eq_zero_iff.1 h]; exact h0
    | succ n ih =>
      intro es h
      have hne : es ≠ [] := by intro h'; rw [h'] at h; simp at h
      rw [← List.dropLast_concat_getLast hne]
      exact h1 _ _ (ih _ (by simp [h]))
  exact this _ es rfl

theorem wiring_run (G : Graph) (es : List Ev) : Wiring G (G.run es) := by
  induction es using snoc_induction with
  | h0 => exact wiring_start G
  | h1 es ev ih => rw [run_snoc]; exact wiring_step G _ ev ih

theorem place_object (G : Graph) {e i : Nat} (h : G.place e = some i) : G.object e = i := by
  unfold Graph.place at h
  unfold Graph.object
  split at h
  · simp at h
  · next t hk => rw [hk]; simpa using h
  · next h1 h2 =>
    split
    · next t hk => exact absurd hk (h2 t)
    · simpa using h

theorem object_place (G : Graph) {e i : Nat} (hi : G.place i = some i) (h : G.object e = i) : G.place e = some i := by
  unfold Graph.object at h
  unfold Graph.place
  split at h
  · next t hk => rw [hk, h]
  · next h2 =>
    subst h
    split
    · next hk => unfold Graph.place at hi; rw [hk] at hi; simp at hi
    · next t hk => exact absurd hk (h2 t)
    · rfl

theorem listening_snoc (G : Graph) (es : List Ev) (ev : Ev) (e n : Nat) : G.listening (es ++ [ev]) e n = match ev with
    | .listen e' n' => G.listening es e n || (decide (G.object e' = G.object e) && decide (n' = n))
    | .unlisten e' n' => G.listening es e n && !(decide (G.object e' = G.object e) && decide (n' = n))
    | _ => G.listening es e n := by
  simp only [Graph.listening, List.foldl_append, List.foldl_cons, List.foldl_nil]
  cases ev <;> rfl

/-- The outside listeners kept at `i` are those listening now. -/
theorem ext_listening (G : Graph) (es : List Ev) (i n : Nat) (hi : G.place i = some i) :
    .ext n ∈ (G.run es).listeners i ↔ G.listening es i n = true := by
  have ho := place_object G hi
  induction es using snoc_induction with
  | h0 => simp [Graph.run, start, Graph.listening]
  | h1 es ev ih =>
    rw [run_snoc, listening_snoc]
    cases ev with
    | listen e m =>
      have A := add_added G e (fun _ => False) (.ext m) trivial (fun _ h => h.elim) (G.run es)
      have h1 : .ext n ∈ (G.add e (.ext m) (G.run es)).listeners i ↔ .ext n ∈ (G.run es).listeners i ∨ At G e (.ext m) i (.ext n) := by
        refine ⟨A.new i (.ext n) trivial, fun h => ?_⟩
        rcases h with h | h
        · exact A.mono i _ h
        · exact A.has i _ h
      simp only [Graph.step, h1, ih, ho, Bool.or_eq_true, Bool.and_eq_true, decide_eq_true_eq]
      unfold At
      constructor
      · rintro (h | ⟨h, h'⟩)
        · exact .inl h
        · exact .inr ⟨place_object G h, by injection h' with h'; exact h'.symm⟩
      · rintro (h | ⟨h, h'⟩)
        · exact .inl h
        · exact .inr ⟨object_place G hi h, by rw [h']⟩
    | unlisten e m =>
      have R := remove_removed G e (fun _ => False) (.ext m) trivial (fun _ h => h.elim) (G.run es) (wiring_run G es).nd
      simp only [Graph.step, R.exact i (.ext n) trivial, ih, ho, Bool.and_eq_true, Bool.not_eq_true', ← Bool.not_eq_true,
        decide_eq_true_eq]
      unfold At
      refine and_congr Iff.rfl (not_congr ⟨?_, ?_⟩)
      · rintro ⟨h, h'⟩
        exact ⟨place_object G h, by injection h' with h'; exact h'.symm⟩
      · rintro ⟨h, h'⟩
        exact ⟨object_place G hi h, by rw [h']⟩
    | activate e => simp only [Graph.step, (activate_still G e _).listeners, ih]
    | deactivate e => simp only [Graph.step, (deactivate_still G e _).listeners, ih]

/-- Only what keeps listeners has them. -/
theorem placed (G : Graph) (es : List Ev) (i : Nat) (h : (G.run es).listeners i ≠ []) : G.place i = some i := by
  induction es using snoc_induction with
  | h0 => simp [Graph.run, start] at h
  | h1 es ev ih =>
    rw [run_snoc] at h
    have hw := wiring_step G (G.run es) ev (wiring_run G es)
    cases hh : (G.step (G.run es) ev).listeners i with
    | nil => exact absurd hh h
    | cons x xs =>
      have hx : x ∈ (G.step (G.run es) ev).listeners i := by rw [hh]; simp
      cases x with
      | expr p =>
        obtain ⟨_, c, _, hc⟩ := hw.wired p i hx
        exact G.place_self hc
      | ext n =>
        cases ev with
        | listen e m =>
          have A := add_added G e (fun _ => False) (.ext m) trivial (fun _ h => h.elim) (G.run es)
          rcases A.new i (.ext n) trivial hx with h | h
          · exact ih (by intro h'; rw [h'] at h; simp at h)
          · exact G.place_self h.1
        | unlisten e m =>
          have R := remove_removed G e (fun _ => False) (.ext m) trivial (fun _ h => h.elim) (G.run es) (wiring_run G es).nd
          have h := ((R.exact i (.ext n) trivial).1 hx).1
          exact ih (by intro h'; rw [h'] at h; simp at h)
        | activate e =>
          rw [Graph.step, (activate_still G e _).listeners] at hx
          exact ih (by intro h'; rw [h'] at hx; simp at hx)
        | deactivate e =>
          rw [Graph.step, (deactivate_still G e _).listeners] at hx
          exact ih (by intro h'; rw [h'] at hx; simp at hx)

/-! ### The frontier -/

theorem mem_frontier (G : Graph) (e v : Nat) : v ∈ G.frontier e ↔
    ∃ c ∈ (G.kind e).subs, ((G.kind c).source = true ∧ v = c) ∨ ((G.kind c).source = false ∧ v ∈ G.frontier c) := by
  conv => lhs; rw [Graph.frontier]
  simp only [List.mem_flatMap, List.mem_attach, true_and, Subtype.exists]
  constructor
  · rintro ⟨c, hc, hm⟩
    refine ⟨c, hc, ?_⟩
    split at hm
    · next h => exact .inl ⟨h, List.mem_singleton.1 hm⟩
    · next h => exact .inr ⟨by simpa using h, hm⟩
  · rintro ⟨c, hc, hm⟩
    refine ⟨c, hc, ?_⟩
    rcases hm with ⟨h, rfl⟩ | ⟨h, hm⟩
    · rw [if_pos h]; simp
    · rw [if_neg (by simp [h])]; exact hm

theorem frontier_source (G : Graph) (e : Nat) : ∀ v ∈ G.frontier e, (G.kind v).source = true := by
  induction e using Nat.strongRecOn with
  | _ e ih =>
    intro v hv
    obtain ⟨c, hc, h⟩ := (mem_frontier G e v).1 hv
    rcases h with ⟨h, rfl⟩ | ⟨_, h⟩
    · exact h
    · exact ih c (G.subs_lt e c hc) v h

theorem source_place (G : Graph) {v : Nat} (h : (G.kind v).source = true) : G.place v = some v := by
  unfold Graph.place
  split
  · next hk => rw [hk] at h; simp [Kind.source] at h
  · next t hk => rw [hk] at h; simp [Kind.source] at h
  · rfl

theorem prop_place (G : Graph) {v : Nat} (h : (G.kind v).prop = true) : G.place v = some v := by
  unfold Graph.place
  split
  · next hk => rw [hk] at h; simp [Kind.prop] at h
  · next t hk => rw [hk] at h; simp [Kind.prop] at h
  · rfl

theorem frontier_hosts (G : Graph) (e : Nat) : ∀ v ∈ G.frontier e, v ∈ G.hosts e := by
  intro v hv
  unfold Graph.hosts
  split
  · exact List.mem_append.2 (.inr hv)
  · exact hv

theorem mem_hosts (G : Graph) (e c : Nat) (h : c ∈ G.hosts e) : c ∈ (G.kind e).subs ∨ c ∈ G.frontier e := by
  unfold Graph.hosts at h
  split at h
  · next n ps t hk =>
    rw [hk]
    rcases List.mem_append.1 h with h | h
    · left
      simp only [Kind.subs, List.mem_append, List.mem_cons] at h ⊢
      rcases h with h | h | h
      · exact .inr h
      · exact .inl (.inl h)
      · exact .inl (.inr h)
    · exact .inr h
  · exact .inr h

/-! ### Who is told -/

theorem mem_told (G : Graph) (relay : Nat → Bool) (s : Net) (k e n : Nat) : n ∈ G.told relay s (k + 1) e ↔
    G.active s e = true ∧ (.ext n ∈ s.listeners e ∨ ∃ p, .expr p ∈ s.listeners e ∧ G.active s p = true ∧
      G.relays relay p = true ∧ n ∈ G.told relay s k p) := by
  rw [Graph.told]
  split
  · next h =>
    simp only [h, true_and, List.mem_flatMap]
    constructor
    · rintro ⟨l, hl, hm⟩
      cases l with
      | ext m => simp only [List.mem_singleton] at hm; subst hm; exact .inl hl
      | expr p =>
        simp only at hm
        split at hm
        · next hh =>
          rw [Bool.and_eq_true] at hh
          exact .inr ⟨p, hl, hh.1, hh.2, hm⟩
        · simp at hm
    · rintro (h | ⟨p, hl, h1, h2, hm⟩)
      · exact ⟨_, h, by simp⟩
      · exact ⟨_, hl, by simp [h1, h2, hm]⟩
  · next h => simp [h]

/-- More depth than needed does no harm. -/
theorem told_enough {G : Graph} {s : Net} (hw : Wired G s) (relay : Nat → Bool) (n : Nat) : ∀ k e, n ∈ G.told relay s k e →
    ∀ m, G.size - e + 1 ≤ m → n ∈ G.told relay s m e := by
  intro k
  induction k with
  | zero => intro e h; simp [Graph.told] at h
  | succ k ih =>
    intro e h m hm
    obtain ⟨m, rfl⟩ : ∃ m', m = m' + 1 := ⟨m - 1, by omega⟩
    rw [mem_told] at h ⊢
    refine ⟨h.1, h.2.imp id ?_⟩
    rintro ⟨p, h1, h2, h3, h4⟩
    refine ⟨p, h1, h2, h3, ih p h4 m ?_⟩
    obtain ⟨hp, c, hc, hpl⟩ := hw p e h1
    have a1 := G.place_le hpl
    have a2 := G.hosts_lt p c hc
    have a3 : p < G.size := G.size_of_counts (by revert hp; cases G.kind p <;> simp [Kind.prop, Kind.counts])
    omega

theorem mem_publish {G : Graph} {s : Net} (hw : Wired G s) (relay : Nat → Bool) (n e : Nat) :
    n ∈ G.publish relay s e ↔ ∃ k, n ∈ G.told relay s k e :=
  ⟨fun h => ⟨_, h⟩, fun ⟨k, h⟩ => told_enough hw relay n k e h _ (Nat.le_refl _)⟩

theorem affects_source {G : Graph} {relay : Nat → Bool} {s : Net} {v e : Nat} (h : Affects G relay s v e) :
    (G.kind v).source = true := by
  induction h with
  | self h => exact h
  | proxy h => rw [G.proxy_node _ _ h]; rfl
  | func _ _ _ ih => exact ih
  | lookup _ _ _ _ _ ih => exact ih

/-- A change passes from a source to a listening propagator. -/
theorem affects_told {G : Graph} {relay : Nat → Bool} {s : Net} (W : Wiring G s) {v e : Nat} (hv : G.active s v = true)
    (n : Nat) (h : Affects G relay s v e) : ∀ p k, (G.kind p).prop = true → s.listeners p ≠ [] → G.active s p = true →
      G.relays relay p = true → (if (G.kind e).source then e ∈ G.hosts p else ∀ w ∈ G.frontier e, w ∈ G.hosts p) →
      n ∈ G.told relay s k p → ∃ k, n ∈ G.told relay s k v := by
  have one : ∀ p k, (G.kind p).prop = true → s.listeners p ≠ [] → G.active s p = true → G.relays relay p = true →
      ∀ w, (G.kind w).source = true → G.active s w = true → w ∈ G.hosts p → n ∈ G.told relay s k p → n ∈ G.told relay s (k + 1) w := by
    intro p k h1 h2 h3 h4 w hw ha hm hn
    rw [mem_told]
    exact ⟨ha, .inr ⟨p, W.up p (fun h => h) h1 h2 w hm w (source_place G hw), h3, h4, hn⟩⟩
  induction h with
  | self hs =>
    intro p k h1 h2 h3 h4 h5 h6
    rw [if_pos hs] at h5
    exact ⟨_, one p k h1 h2 h3 h4 v hs hv h5 h6⟩
  | @proxy e he =>
    intro p k h1 h2 h3 h4 h5 h6
    have hs : (G.kind v).source = true := by rw [G.proxy_node _ _ he]; rfl
    rw [if_neg (by rw [he]; simp [Kind.source])] at h5
    refine ⟨_, one p k h1 h2 h3 h4 v hs hv (h5 v ?_) h6⟩
    rw [mem_frontier]
    exact ⟨v, by rw [he]; simp [Kind.subs], .inl ⟨hs, rfl⟩⟩
  | @func e c ss as he hc hA ih =>
    intro p k h1 h2 h3 h4 h5 h6
    rw [if_neg (by rw [he]; simp [Kind.source])] at h5
    refine ih p k h1 h2 h3 h4 ?_ h6
    have hsub : c ∈ (G.kind e).subs := by rw [he]; exact hc
    split
    · next hs => exact h5 c ((mem_frontier G e c).2 ⟨c, hsub, .inl ⟨hs, rfl⟩⟩)
    · next hs => exact fun w hw => h5 w ((mem_frontier G e w).2 ⟨c, hsub, .inr ⟨by simpa using hs, hw⟩⟩)
  | @lookup e c n' ps t he ha hr hc hA ih =>
    intro p k h1 h2 h3 h4 h5 h6
    have hse : (G.kind e).source = true := by rw [he]; rfl
    rw [if_pos hse] at h5
    have hmem := W.up p (fun h => h) h1 h2 e h5 e (source_place G hse)
    refine ih e (k + 1) (by rw [he]; rfl) (by intro h; rw [h] at hmem; simp at hmem) ha (by simp [Graph.relays, he, hr]) ?_
      (one p k h1 h2 h3 h4 e hse ha h5 h6)
    have hsub : c ∈ (G.kind e).subs := by
      rw [he]
      simp only [Kind.subs, List.mem_append, List.mem_cons, Option.mem_toList]
      rcases hc with h | h | h
      · exact .inl (.inl h)
      · exact .inl (.inr h)
      · exact .inr h
    split
    · next hs => exact frontier_hosts G e c ((mem_frontier G e c).2 ⟨c, hsub, .inl ⟨hs, rfl⟩⟩)
    · next hs => exact fun w hw => frontier_hosts G e w ((mem_frontier G e w).2 ⟨c, hsub, .inr ⟨by simpa using hs, hw⟩⟩)

/-- An affected host affects what listens there. -/
theorem affects_up {G : Graph} {relay : Nat → Bool} {s : Net} {v c p : Nat} (h : Affects G relay s v c)
    (hp : (G.kind p).prop = true) (ha : G.active s p = true) (hr : G.relays relay p = true) (hc : c ∈ (G.kind p).subs) :
    Affects G relay s v p := by
  cases hk : G.kind p with
  | inert => rw [hk] at hp; simp [Kind.prop] at hp
  | proxy t => rw [hk] at hp; simp [Kind.prop] at hp
  | node => rw [hk] at hp; simp [Kind.prop] at hp
  | leaf as => rw [hk] at hp; simp [Kind.prop] at hp
  | func ss as => rw [hk] at hc; exact .func hk hc h
  | lookup n ps t =>
    have : c = n ∨ c ∈ ps ∨ t = some c := by
      rw [hk] at hc
      simp only [Kind.subs, List.mem_append, List.mem_cons, Option.mem_toList] at hc
      rcases hc with (h | h) | h
      · exact .inl h
      · exact .inr (.inl h)
      · exact .inr (.inr h)
    exact .lookup hk ha (by simpa [Graph.relays, hk] using hr) this h

theorem affects_frontier {G : Graph} {relay : Nat → Bool} {s : Net} {v w : Nat} (h : Affects G relay s v w) (e : Nat) :
    w ∈ G.frontier e → G.relays relay e = true → ((∃ n ps t, G.kind e = .lookup n ps t) → G.active s e = true) →
    Affects G relay s v e := by
  induction e using Nat.strongRecOn with
  | _ e ih =>
    intro hw hr ha
    obtain ⟨c, hc, hh⟩ := (mem_frontier G e w).1 hw
    have hcA : Affects G relay s v c := by
      rcases hh with ⟨_, rfl⟩ | ⟨hs, hm⟩
      · exact h
      · refine ih c (G.subs_lt e c hc) hm ?_ ?_
        · unfold Graph.relays; split
          · next hk => rw [hk] at hs; simp [Kind.source] at hs
          · rfl
        · rintro ⟨n, ps, t, hk⟩; rw [hk] at hs; simp [Kind.source] at hs
    cases hk : G.kind e with
    | inert => rw [hk] at hc; simp [Kind.subs] at hc
    | node => rw [hk] at hc; simp [Kind.subs] at hc
    | leaf as => rw [hk] at hc; simp [Kind.subs] at hc
    | proxy t =>
      rw [hk] at hc
      simp only [Kind.subs, List.mem_singleton] at hc
      subst hc
      have hn := G.proxy_node _ _ hk
      cases hcA with
      | self _ => exact .proxy hk
      | proxy h' => rw [hn] at h'; simp at h'
      | func h' => rw [hn] at h'; simp at h'
      | lookup h' => rw [hn] at h'; simp at h'
    | func ss as => rw [hk] at hc; exact .func hk hc hcA
    | lookup n ps t => exact affects_up hcA (by rw [hk]; rfl) (ha ⟨_, _, _, hk⟩) hr hc

theorem affects_place {G : Graph} {relay : Nat → Bool} {s : Net} {v c q : Nat} (hp : G.place c = some q)
    (h : Affects G relay s v q) : Affects G relay s v c := by
  unfold Graph.place at hp
  split at hp
  · simp at hp
  · next t hk =>
    cases hp
    have hn := G.proxy_node _ _ hk
    cases h with
    | self _ => exact .proxy hk
    | proxy h' => rw [hn] at h'; simp at h'
    | func h' => rw [hn] at h'; simp at h'
    | lookup h' => rw [hn] at h'; simp at h'
  · cases hp; exact h

/-- Whoever is told listens to something affected. -/
theorem told_affects {G : Graph} {relay : Nat → Bool} {s : Net} (hw : Wired G s) (n v : Nat) : ∀ k e, n ∈ G.told relay s k e →
    Affects G relay s v e → ∃ r, .ext n ∈ s.listeners r ∧ G.active s r = true ∧ Affects G relay s v r := by
  intro k
  induction k with
  | zero => intro e h; simp [Graph.told] at h
  | succ k ih =>
    intro e h hA
    rw [mem_told] at h
    obtain ⟨ha, h | ⟨p, hm, h1, h2, h3⟩⟩ := h
    · exact ⟨e, h, ha, hA⟩
    · obtain ⟨hp, c, hc, hpl⟩ := hw p e hm
      refine ih p h3 ?_
      have hcA := affects_place hpl hA
      rcases mem_hosts G p c hc with hs | hf
      · exact affects_up hcA hp h1 h2 hs
      · exact affects_frontier hcA p hf h2 (fun _ => h1)

/-- The outside listeners told of a change of `v`. -/
theorem publish_iff {G : Graph} {relay : Nat → Bool} {s : Net} (W : Wiring G s) (v n : Nat) (hv : (G.kind v).source = true) :
    n ∈ G.publish relay s v ↔ G.active s v = true ∧
      ∃ r, .ext n ∈ s.listeners r ∧ G.active s r = true ∧ (r = v ∨ (G.kind r).prop = true ∧ Affects G relay s v r) := by
  constructor
  · intro h
    have ha : G.active s v = true := by
      unfold Graph.publish at h
      exact ((mem_told ..).1 h).1
    refine ⟨ha, ?_⟩
    obtain ⟨k, hk⟩ := (mem_publish W.wired relay n v).1 h
    cases k with
    | zero => simp [Graph.told] at hk
    | succ k =>
      obtain ⟨_, h' | ⟨p, hm, h1, h2, h3⟩⟩ := (mem_told ..).1 hk
      · exact ⟨v, h', ha, .inl rfl⟩
      · -- through a propagator: the listener's expression is one
        have gen : ∀ k e, n ∈ G.told relay s k e → (G.kind e).prop = true → Affects G relay s v e →
            ∃ r, .ext n ∈ s.listeners r ∧ G.active s r = true ∧ (G.kind r).prop = true ∧ Affects G relay s v r := by
          intro k
          induction k with
          | zero => intro e h; simp [Graph.told] at h
          | succ k ih =>
            intro e h hp hA
            rw [mem_told] at h
            obtain ⟨ha, h | ⟨p, hm, h1, h2, h3⟩⟩ := h
            · exact ⟨e, h, ha, hp, hA⟩
            · obtain ⟨hp, c, hc, hpl⟩ := W.wired p e hm
              refine ih p h3 hp ?_
              have hcA := affects_place hpl hA
              rcases mem_hosts G p c hc with hs | hf
              · exact affects_up hcA hp h1 h2 hs
              · exact affects_frontier hcA p hf h2 (fun _ => h1)
        obtain ⟨hp, c, hc, hpl⟩ := W.wired p v hm
        have hcA := affects_place hpl (Affects.self (relay := relay) (s := s) hv)
        obtain ⟨r, a1, a2, a3, a4⟩ := gen k p h3 hp (by
          rcases mem_hosts G p c hc with hs | hf
          · exact affects_up hcA hp h1 h2 hs
          · exact affects_frontier hcA p hf h2 (fun _ => h1))
        exact ⟨r, a1, a2, .inr ⟨a3, a4⟩⟩
  · rintro ⟨ha, r, h1, h2, rfl | ⟨h3, h4⟩⟩
    · exact (mem_publish W.wired relay n r).2 ⟨1, (mem_told ..).2 ⟨ha, .inl h1⟩⟩
    · rw [mem_publish W.wired]
      have hne : s.listeners r ≠ [] := by intro h; rw [h] at h1; simp at h1
      have h0 : n ∈ G.told relay s 1 r := (mem_told ..).2 ⟨h2, .inl h1⟩
      cases h4 with
      | self _ => exact ⟨1, h0⟩
      | proxy h => rw [h] at h3; simp [Kind.prop] at h3
      | @func _ c ss as he hc hA =>
        refine affects_told W ha n hA r 1 h3 hne h2 (by simp [Graph.relays, he]) ?_ h0
        have hsub : c ∈ (G.kind r).subs := by rw [he]; exact hc
        split
        · next hs => exact frontier_hosts G r c ((mem_frontier G r c).2 ⟨c, hsub, .inl ⟨hs, rfl⟩⟩)
        · next hs => exact fun w hw => frontier_hosts G r w ((mem_frontier G r w).2 ⟨c, hsub, .inr ⟨by simpa using hs, hw⟩⟩)
      | @lookup _ c n' ps t he ha' hr hc hA =>
        refine affects_told W ha n hA r 1 h3 hne h2 (by simp [Graph.relays, he, hr]) ?_ h0
        have hsub : c ∈ (G.kind r).subs := by
          rw [he]
          simp only [Kind.subs, List.mem_append, List.mem_cons, Option.mem_toList]
          rcases hc with h | h | h
          · exact .inl (.inl h)
          · exact .inl (.inr h)
          · exact .inr h
        split
        · next hs => exact frontier_hosts G r c ((mem_frontier G r c).2 ⟨c, hsub, .inl ⟨hs, rfl⟩⟩)
        · next hs => exact fun w hw => frontier_hosts G r w ((mem_frontier G r w).2 ⟨c, hsub, .inr ⟨by simpa using hs, hw⟩⟩)

end Verif.Notify
