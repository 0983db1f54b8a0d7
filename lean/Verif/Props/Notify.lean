import Verif.Notify.Publish

/-!
# Change notification (C47), tear-down (C48), activation (C49), hearing of operands (C50)

The model is `Verif/Notify/Model.lean`, the vocabulary `Verif/Notify/Spec.lean`.  The theorems hold for every
graph of expressions (operands may be shared) and every history of calls.
-/
namespace Verif.Notify

/-! ## Activation -/

theorem held_snoc_activate {es : List Ev} {e : Nat} (hb : ∀ c, es.count (.deactivate c) ≤ es.count (.activate c)) (c : Nat) :
    held (es ++ [.activate e]) c = held es c + if c = e then 1 else 0 := by
  have := hb c
  unfold held
  rw [List.count_append, List.count_append]
  by_cases h : c = e
  · subst h; simp; omega
  · have h' : ¬ e = c := fun h' => h h'.symm
    simp [h', h]

theorem held_snoc_deactivate {es : List Ev} {e : Nat} (hb : ∀ c, (es ++ [Ev.deactivate e]).count (Ev.deactivate c) ≤ (es ++ [Ev.deactivate e]).count (Ev.activate c))
    (c : Nat) : held es c = held (es ++ [.deactivate e]) c + if c = e then 1 else 0 := by
  have := hb c
  unfold held
  rw [List.count_append, List.count_append] at *
  by_cases h : c = e
  · subst h; simp at this ⊢; omega
  · have h' : ¬ e = c := fun h' => h h'.symm
    simp [h', h]

theorem held_snoc_other {es : List Ev} {ev : Ev} (h1 : ∀ e, ev ≠ .activate e) (h2 : ∀ e, ev ≠ .deactivate e) (c : Nat) :
    held (es ++ [ev]) c = held es c := by
  unfold held
  rw [List.count_append, List.count_append]
  have a := h1 c
  have b := h2 c
  simp [a, b]

theorem Balanced.front {es : List Ev} {ev : Ev} (h : Balanced (es ++ [ev])) : Balanced es := by
  intro a b hab e
  exact h a (b ++ [ev]) (by rw [hab, List.append_assoc]) e

theorem bal_run (G : Graph) (es : List Ev) (hb : Balanced es) :
    Bal G (held es) (fun _ => 0) (fun _ => 0) (G.run es) ∧ (G.run es).fault = false := by
  induction es using snoc_induction with
  | h0 =>
    refine ⟨fun c _ => ?_, rfl⟩
    have : G.due (G.run []) c = 0 := by
      have h := (not_congr (dueTo_pos G (G.run []).count c G.size)).2 (by simp [Graph.run, start])
      unfold Graph.due; omega
    rw [this]
    simp [Graph.run, start, held]
  | h1 es ev ih =>
    obtain ⟨h1, h2⟩ := ih hb.front
    have hcnt := fun c => hb es [ev] rfl c
    have hcnt' := fun c => hb (es ++ [ev]) [] (by simp) c
    rw [run_snoc]
    cases ev with
    | listen e n =>
      have A := add_added G e (fun _ => False) (.ext n) trivial (fun _ h => h.elim) (G.run es)
      refine ⟨fun c hk => ?_, A.fault.trans h2⟩
      have := h1 c hk
      unfold Graph.due at this ⊢
      rw [held_snoc_other (by simp) (by simp)]
      simp only [Graph.step]
      rw [A.count]; exact this
    | unlisten e n =>
      have R := remove_removed G e (fun _ => False) (.ext n) trivial (fun _ h => h.elim) (G.run es) (wiring_run G es).nd
      refine ⟨fun c hk => ?_, R.fault.trans h2⟩
      have := h1 c hk
      unfold Graph.due at this ⊢
      rw [held_snoc_other (by simp) (by simp)]
      simp only [Graph.step]
      rw [R.count]; exact this
    | activate e =>
      refine activate_bal G _ _ e (fun _ => 0) (G.run es) ⟨fun c hk => ?_, h2⟩
      have := h1 c hk
      rw [held_snoc_activate hcnt c]
      unfold plus
      omega
    | deactivate e =>
      refine deactivate_bal G _ e (fun _ => 0) (G.run es) ⟨fun c hk => ?_, h2⟩
      have := h1 c hk
      rw [held_snoc_deactivate hcnt' c] at this
      unfold plus
      omega

theorem acts_counts (G : Graph) {e c : Nat} (h : c ∈ (G.kind e).acts) : (G.kind e).counts = true := by
  revert h
  cases G.kind e <;> simp [Kind.acts, Kind.counts]

/-- **C49.** Whatever the graph and the history of calls from outside, as long as nothing is deactivated from outside
more often than it was activated, the assertion in `deactivate` never fails, and an expression that counts its
activations is active exactly if it is kept active by something activated from outside and not yet released. -/
theorem c49_activation (G : Graph) (es : List Ev) (hb : Balanced es) :
    (G.run es).fault = false ∧ ∀ c, (G.kind c).counts = true →
      (G.active (G.run es) c = true ↔ ∃ r, (G.kind r).counts = true ∧ 0 < held es r ∧ Keeps G r c) := by
  obtain ⟨hB, hf⟩ := bal_run G es hb
  refine ⟨hf, ?_⟩
  have hact : ∀ c, (G.kind c).counts = true → (G.active (G.run es) c = true ↔ 0 < (G.run es).count c) := by
    intro c hc; simp [Graph.active, hc]
  have step : ∀ c, (G.kind c).counts = true → (0 < (G.run es).count c ↔ 0 < held es c ∨
      ∃ e < G.size, 0 < (G.run es).count e ∧ c ∈ (G.kind e).acts) := by
    intro c hc
    have h1 := hB c hc
    rw [← dueTo_pos]
    unfold Graph.due at h1
    simp only at h1
    omega
  intro c hc
  rw [hact c hc]
  constructor
  · have gen : ∀ m c, G.size - c = m → (G.kind c).counts = true → 0 < (G.run es).count c →
        ∃ r, (G.kind r).counts = true ∧ 0 < held es r ∧ Keeps G r c := by
      intro m
      induction m using Nat.strongRecOn with
      | _ m ih =>
        intro c hm hc h
        rcases (step c hc).1 h with h | ⟨e, he, hp, ha⟩
        · exact ⟨c, hc, h, .self c⟩
        · have h1 := G.acts_lt e c ha
          obtain ⟨r, a1, a2, a3⟩ := ih (G.size - e) (by omega) e rfl (acts_counts G ha) hp
          exact ⟨r, a1, a2, .act a3 (acts_counts G ha) ha⟩
    exact gen _ c rfl hc
  · rintro ⟨r, h1, h2, h3⟩
    induction h3 with
    | self => exact (step r h1).2 (.inl h2)
    | @act d c' hk hd ha ih =>
      exact (step _ hc).2 (.inr ⟨_, G.size_of_counts hd, ih hd, ha⟩)

/-- **C49.** Once everything activated from outside has been released as often, nothing is left active. -/
theorem c49_released (G : Graph) (es : List Ev) (hb : Balanced es) (hr : ∀ e, es.count (.activate e) = es.count (.deactivate e)) :
    ∀ c, (G.kind c).counts = true → G.active (G.run es) c = false := by
  intro c hc
  cases h : G.active (G.run es) c with
  | false => rfl
  | true =>
    obtain ⟨r, _, h2, _⟩ := ((c49_activation G es hb).2 c hc).1 h
    unfold held at h2
    rw [hr r] at h2
    omega

/-! ## Notification -/

/-- **C47.** After any history of calls, the outside listeners told when a source `v` (a variable, node, lookup, command
handle, time point) publishes a change are exactly those listening to some active expression that a change of `v`
can affect; and none if `v` is not active. -/
theorem c47_told (G : Graph) (relay : Nat → Bool) (es : List Ev) (v n : Nat) (hv : (G.kind v).source = true) :
    n ∈ G.publish relay (G.run es) v ↔ G.active (G.run es) v = true ∧
      ∃ e, G.listening es e n = true ∧ G.active (G.run es) e = true ∧ Affects G relay (G.run es) v e := by
  have W := wiring_run G es
  rw [publish_iff W v n hv]
  refine and_congr Iff.rfl ⟨?_, ?_⟩
  · rintro ⟨r, h1, h2, h3⟩
    have hpl : G.place r = some r := placed G es r (by intro h; rw [h] at h1; simp at h1)
    refine ⟨r, (ext_listening G es r n hpl).1 h1, h2, ?_⟩
    rcases h3 with rfl | ⟨_, h3⟩
    · exact .self hv
    · exact h3
  · rintro ⟨e, h1, h2, h3⟩
    have hvp := source_place G hv
    by_cases hp : (G.kind e).prop = true
    · exact ⟨e, (ext_listening G es e n (prop_place G hp)).2 h1, h2, .inr ⟨hp, h3⟩⟩
    · refine ⟨v, (ext_listening G es v n hvp).2 ?_, ?_, .inl rfl⟩
      · cases h3 with
        | self _ => exact h1
        | proxy hk =>
          have : G.object e = G.object v := by
            rw [place_object G hvp]; unfold Graph.object; rw [hk]
          unfold Graph.listening at h1 ⊢
          rw [this] at h1; exact h1
        | func hk => rw [hk] at hp; simp [Kind.prop] at hp
        | lookup hk => rw [hk] at hp; simp [Kind.prop] at hp
      · cases h3 with
        | self _ => exact h2
        | proxy hk => rw [Graph.active, G.proxy_node _ _ hk]; rfl
        | func hk => rw [hk] at hp; simp [Kind.prop] at hp
        | lookup hk => rw [hk] at hp; simp [Kind.prop] at hp

theorem keeps_sub {G : Graph} (hn : G.NoAlias) {r e d : Nat} (hk : Keeps G r e) (hd : d ∈ (G.kind e).subs)
    (hp : (G.kind e).prop = true) : Keeps G r d := by
  refine .act hk ?_ ?_
  · revert hp; cases G.kind e <;> simp [Kind.prop, Kind.counts]
  · cases h : G.kind e with
    | func ss as => rw [h] at hd; exact hn e ss as h d hd
    | lookup n ps t => rw [h] at hd; exact hd
    | inert => rw [h] at hp; simp [Kind.prop] at hp
    | proxy t => rw [h] at hp; simp [Kind.prop] at hp
    | node => rw [h] at hp; simp [Kind.prop] at hp
    | leaf as => rw [h] at hp; simp [Kind.prop] at hp

/-- **C50.** Where there are no aliases, somebody who activates an expression and listens to it is told of every change
of every variable, node, lookup, command handle and time point that occurs in it, at any depth, provided the lookups
whose state depends on it publish in turn. -/
theorem c50_operands_partial (G : Graph) (hn : G.NoAlias) (relay : Nat → Bool) (es : List Ev) (hb : Balanced es) (e n v : Nat)
    (hc : (G.kind e).counts = true) (hh : 0 < held es e) (hl : G.listening es e n = true) (hv : (G.kind v).source = true)
    (hd : Below G v e) (hr : ∀ p, Below G p e → p ≠ v → relay p = true) : n ∈ G.publish relay (G.run es) v := by
  obtain ⟨_, hact⟩ := c49_activation G es hb
  have act : ∀ c, Keeps G e c → G.active (G.run es) c = true := by
    intro c hk
    by_cases hcc : (G.kind c).counts = true
    · exact (hact c hcc).2 ⟨e, hc, hh, hk⟩
    · simp [Graph.active, hcc]
  have gen : ∀ v d, Below G v d → (G.kind v).source = true → Keeps G e d → (∀ p, Below G p d → p ≠ v → relay p = true) →
      Affects G relay (G.run es) v d ∧ G.active (G.run es) v = true := by
    intro v d h
    clear hd hv hr
    induction h with
    | self => intro hv hk _; exact ⟨.self hv, act _ hk⟩
    | @sub e' d' v hd' hB ih =>
      intro hv hk hr
      have hlt : v ≤ d' := by
        have : ∀ {a b}, Below G a b → a ≤ b := by
          intro a b h
          induction h with
          | self => exact Nat.le_refl _
          | sub h _ ih => exact Nat.le_trans (ih) (Nat.le_of_lt (G.subs_lt _ _ h))
        exact this hB
      have hne : e' ≠ v := by have := G.subs_lt _ _ hd'; omega
      cases hk' : G.kind e' with
      | func ss as =>
        obtain ⟨a, b⟩ := ih hv (keeps_sub hn hk hd' (by rw [hk']; rfl)) (fun p hp => hr p (.sub hd' hp))
        exact ⟨affects_up a (by rw [hk']; rfl) (act _ hk) (by simp [Graph.relays, hk']) hd', b⟩
      | lookup m ps t =>
        obtain ⟨a, b⟩ := ih hv (keeps_sub hn hk hd' (by rw [hk']; rfl)) (fun p hp => hr p (.sub hd' hp))
        exact ⟨affects_up a (by rw [hk']; rfl) (act _ hk) (by simp [Graph.relays, hk', hr e' (.self e') hne]) hd', b⟩
      | proxy t =>
        rw [hk'] at hd'
        simp only [Kind.subs, List.mem_singleton] at hd'
        subst hd'
        have hnode := G.proxy_node _ _ hk'
        cases hB with
        | self => exact ⟨.proxy hk', by simp [Graph.active, hnode, Kind.counts]⟩
        | sub h' _ => rw [hnode] at h'; simp [Kind.subs] at h'
      | inert => rw [hk'] at hd'; simp [Kind.subs] at hd'
      | node => rw [hk'] at hd'; simp [Kind.subs] at hd'
      | leaf as => rw [hk'] at hd'; simp [Kind.subs] at hd'
  obtain ⟨a, b⟩ := gen v e hd hv (.self e) hr
  exact (c47_told G relay es v n hv).2 ⟨b, e, hl, act e (.self e), a⟩

/-! ## Tear-down -/

/-- **C48.** If no lookup has more than four parameters, then whenever nobody outside listens to anything, no expression
has any listener left, so the assertion in the destructor of `Notifier` (`Notifier.cc:74-75`) holds for all of them,
whatever the order in which expressions are deleted. -/
theorem c48_torn_down_partial (G : Graph) (hs : G.Small) (es : List Ev) (h : ∀ e n, G.listening es e n = false) :
    ∀ i, (G.run es).listeners i = [] := by
  have W := wiring_run G es
  have D := W.down hs
  have hx : ∀ i n, .ext n ∉ (G.run es).listeners i := by
    intro i n hm
    have hpl : G.place i = some i := placed G es i (by intro h; rw [h] at hm; simp at hm)
    have := (ext_listening G es i n hpl).1 hm
    rw [h i n] at this; simp at this
  have gen : ∀ m i, G.size - i = m → (G.run es).listeners i = [] := by
    intro m
    induction m using Nat.strongRecOn with
    | _ m ih =>
      intro i hm
      cases hh : (G.run es).listeners i with
      | nil => rfl
      | cons x xs =>
        exfalso
        have hmem : x ∈ (G.run es).listeners i := by rw [hh]; simp
        cases x with
        | ext n => exact hx i n hmem
        | expr p =>
          obtain ⟨h1, h2, c, hc, hpl⟩ := D p (fun h => h) i hmem
          have a1 := G.place_le hpl
          have a2 := G.hosts_lt p c hc
          have a3 : p < G.size := G.size_of_counts (by revert h1; cases G.kind p <;> simp [Kind.prop, Kind.counts])
          exact h2 (ih (G.size - p) (by omega) p rfl)
  exact fun i => gen _ i rfl

/-- **C48.** Listening is undone exactly: an expression that nobody outside listens to any more and that no listened-to
expression uses has no listeners, in any graph of small lookups (the invariant behind `c48_torn_down_partial`): every
expression kept as a listener has itself a listener. -/
theorem c48_listeners_used_partial (G : Graph) (hs : G.Small) (es : List Ev) (p q : Nat) (h : .expr p ∈ (G.run es).listeners q) :
    (G.run es).listeners p ≠ [] := ((wiring_run G es).down hs p (fun h => h) q h).2.1

/-- **C48 fails** for lookups with more than four parameters: after one `addListener` and the matching `removeListener` such a
lookup is still registered with each of its parameters (other than its name and tolerance), and nobody will remove it. -/
theorem c48_five_parameters (G : Graph) (e n : Nat) (ps : List Nat) (t : Option Nat) (he : G.kind e = .lookup n ps t)
    (h5 : 4 < ps.length) (k c q : Nat) (hc : c ∈ ps) (hq : G.place c = some q) (hn : G.place n ≠ some q)
    (ht : ∀ d, t = some d → G.place d ≠ some q) :
    (∀ e' n', G.listening [.listen e k, .unlisten e k] e' n' = false) ∧
    .expr e ∈ (G.run [.listen e k, .unlisten e k]).listeners q := by
  refine ⟨fun e' n' => ?_, ?_⟩
  · simp only [Graph.listening, List.foldl_cons, List.foldl_nil, Bool.false_or, Bool.and_not_self]
  · have hpe : G.place e = some e := prop_place G (by rw [he]; rfl)
    obtain ⟨s, hs⟩ : ∃ s, s = G.run [.listen e k] := ⟨_, rfl⟩
    have hrun : G.run [.listen e k, .unlisten e k] = G.remove e (.ext k) s := by rw [hs]; rfl
    have W : Wiring G s := by rw [hs]; exact wiring_run G _
    have A := add_added G e (fun _ => False) (.ext k) trivial (fun _ h => h.elim) start
    have hlist : s.listeners e = [.ext k] := by
      have hs' : s = G.add e (.ext k) start := hs
      rw [hs', Graph.add_eq, hpe]
      simp only
      have hj : (G.join e start).listeners e = [] := by
        have hd : ∀ m, m < e → ∀ s0 : Net, (G.add m (.expr e) s0).listeners e = s0.listeners e := by
          intro m hm s0
          exact (add_added G m (fun p => p = e) (.expr e) rfl (fun p hp => by omega) s0).above e hm
        unfold Graph.join
        split
        · have : ∀ (cs : List Nat) (s0 : Net), (∀ c ∈ cs, c < e) → s0.listeners e = [] →
              (cs.foldl (fun s c => G.add c (.expr e) s) s0).listeners e = [] := by
            intro cs
            induction cs with
            | nil => intro s0 _ h; exact h
            | cons c cs ih =>
              intro s0 hlt h
              refine ih _ (fun d hd' => hlt d (List.mem_cons_of_mem _ hd')) ?_
              rw [hd c (hlt c (by simp)) s0]; exact h
          exact this _ _ (G.hosts_lt e) rfl
        · rfl
      unfold Net.note
      rw [if_neg (by rw [hj]; simp)]
      simp [hj]
    rw [hrun, Graph.remove_eq, hpe]
    simp only
    obtain ⟨s1, hs1⟩ : ∃ s1, s1 = s.forget e (.ext k) := ⟨_, rfl⟩
    have h1 : s1.listeners e = [] := by rw [hs1]; simp [Net.forget, hlist]
    have hnd : Nd s1 := by rw [hs1]; exact nodup_forget W.nd e _
    rw [← hs1]
    unfold Graph.leave
    rw [if_pos ⟨by rw [he]; rfl, h1⟩]
    have hleav : G.leaving e = ((G.frontier e).map (fun c => (true, c)) ++ ps.map (fun c => (false, c))) ++
        (true, n) :: t.toList.map (fun c => (true, c)) := by
      unfold Graph.leaving; rw [he]
      have : decide (ps.length ≤ 4) = false := by simpa using h5
      simp [this]
    have hlt := G.leaving_lt e
    have ih := fun o (ho : o ∈ G.leaving e) (s : Net) (hs : Nd s) =>
      remove_removed G o.2 (fun p => p = e) (.expr e) rfl (fun p hp => by have := hlt o ho; omega) s hs
    rw [hleav, List.foldl_append]
    obtain ⟨s2, hs2⟩ : ∃ s2, s2 = ((G.frontier e).map (fun c => (true, c)) ++ ps.map (fun c => (false, c))).foldl (G.op e) s1 := ⟨_, rfl⟩
    have hin1 : ∀ o ∈ ((G.frontier e).map (fun c => (true, c)) ++ ps.map (fun c => (false, c))), o ∈ G.leaving e := by
      intro o ho; rw [hleav]; exact List.mem_append.2 (.inl ho)
    have hin2 : ∀ o ∈ (true, n) :: t.toList.map (fun c => (true, c)), o ∈ G.leaving e := by
      intro o ho; rw [hleav]; exact List.mem_append.2 (.inr ho)
    have L1 := left_fold G (fun p => p = e) e e rfl _ (fun o ho => ih o (hin1 o ho)) (fun o ho p hp => by have := hlt o (hin1 o ho); omega)
      (fun o ho => Nat.le_of_lt (hlt o (hin1 o ho))) s1 hnd
    rw [← hs2] at L1 ⊢
    have L2 := left_fold G (fun p => p = e) e e rfl _ (fun o ho => ih o (hin2 o ho)) (fun o ho p hp => by have := hlt o (hin2 o ho); omega)
      (fun o ho => Nat.le_of_lt (hlt o (hin2 o ho))) s2 L1.nd
    rw [L2.own (by intro o ho; simp only [List.mem_cons, List.mem_map] at ho; rcases ho with rfl | ⟨_, _, rfl⟩ <;> rfl)]
    refine ⟨?_, ?_⟩
    · -- the additions put it there
      rw [List.foldl_append] at hs2
      rw [hs2]
      have : ∀ (cs : List Nat) (s0 : Net), (∀ c ∈ cs, c < e) → (c ∈ cs ∨ .expr e ∈ s0.listeners q) →
          .expr e ∈ ((cs.map (fun c => (false, c))).foldl (G.op e) s0).listeners q := by
        intro cs
        induction cs with
        | nil => intro s0 _ h; rcases h with h | h
                 · simp at h
                 · exact h
        | cons d cs ihc =>
          intro s0 hl h
          have A := add_added G d (fun p => p = e) (.expr e) rfl (fun p hp => by have := hl d (by simp); omega) s0
          refine ihc (G.add d (.expr e) s0) (fun x hx => hl x (List.mem_cons_of_mem _ hx)) ?_
          rcases h with h | h
          · rcases List.mem_cons.1 h with rfl | h
            · exact .inr (A.has q _ ⟨hq, rfl⟩)
            · exact .inl h
          · exact .inr (A.mono q _ h)
      exact this ps _ (fun d hd => G.subs_lt e d (by rw [he]; simp [Kind.subs, hd])) (.inl hc)
    · rintro ⟨o, ho, hp⟩
      simp only [List.mem_cons, List.mem_map, Option.mem_toList] at ho
      rcases ho with rfl | ⟨d, hd, rfl⟩
      · exact hn hp
      · exact ht d hd hp

/-! ## Examples: the hypotheses can be met -/

/-- A variable, a name, a lookup of that name with the variable as parameter, and a function of variable and lookup. -/
def sampleKinds : List Kind := [.leaf [], .inert, .lookup 1 [0] none, .func [0, 2] [0, 2], .func [2] []]

def sampleKind (e : Nat) : Kind := sampleKinds.getD e .inert

def sample : Graph where
  size := 5
  kind := sampleKind
  subs_lt := by
    intro e c h
    match e with
    | 0 | 1 | 2 | 3 | 4 => simp [sampleKind, sampleKinds, Kind.subs] at h <;> omega
    | e + 5 => simp [sampleKind, sampleKinds, Kind.subs] at h
  acts_lt := by
    intro e c h
    match e with
    | 0 | 1 | 2 | 3 | 4 => simp [sampleKind, sampleKinds, Kind.acts] at h <;> omega
    | e + 5 => simp [sampleKind, sampleKinds, Kind.acts] at h
  proxy_node := by
    intro e t h
    match e with
    | 0 | 1 | 2 | 3 | 4 => simp [sampleKind, sampleKinds] at h
    | e + 5 => simp [sampleKind, sampleKinds] at h
  outside := by
    intro e h
    match e with
    | 0 | 1 | 2 | 3 | 4 => omega
    | e + 5 => simp [sampleKind, sampleKinds]

/-- A node listens to the function and activates it; it hears of the variable. -/
example : 7 ∈ sample.publish (fun _ => true) (sample.run [.listen 3 7, .activate 3]) 0 := by
  refine (c47_told sample _ _ 0 7 rfl).2 ?_
  have hb : Balanced [.listen 3 7, .activate 3] := by
    intro a b h e
    have : a.count (.deactivate e) ≤ (a ++ b).count (.deactivate e) := by rw [List.count_append]; omega
    rw [← h] at this
    simp at this
    simp only [this, Nat.zero_le]
  have hact := (c49_activation sample _ hb).2
  have k3 : sample.active (sample.run [.listen 3 7, .activate 3]) 3 = true :=
    (hact 3 rfl).2 ⟨3, rfl, by simp [held], .self 3⟩
  have k0 : sample.active (sample.run [.listen 3 7, .activate 3]) 0 = true :=
    (hact 0 rfl).2 ⟨3, rfl, by simp [held], .act (.self 3) rfl (by simp [sample, sampleKind, sampleKinds, Kind.acts])⟩
  exact ⟨k0, 3, by simp [Graph.listening], k3, .func (ss := [0, 2]) (as := [0, 2]) rfl (by simp) (.self rfl)⟩

/-- **C50 fails** for aliases.  The lookup, used through an alias that somebody listens to and has activated, is not active (expression 4 is the alias), so
its changes are not published: an alias passes changes on but does not activate what it stands for (`Alias.cc:36-174`). -/
theorem c50_alias : ∃ (G : Graph) (es : List Ev) (e v n : Nat), Balanced es ∧ (G.kind v).source = true ∧ Below G v e ∧
    0 < held es e ∧ G.listening es e n = true ∧ n ∉ G.publish (fun _ => true) (G.run es) v := by
  have hb : Balanced [.listen 4 7, .activate 4] := by
    intro a b h e
    have : a.count (.deactivate e) ≤ (a ++ b).count (.deactivate e) := by rw [List.count_append]; omega
    rw [← h] at this
    simp at this
    simp only [this, Nat.zero_le]
  refine ⟨sample, [.listen 4 7, .activate 4], 4, 2, 7, hb, rfl, .sub (d := 2) (by simp [sample, sampleKind, sampleKinds, Kind.subs]) (.self 2),
    by simp [held], by simp [Graph.listening], ?_⟩
  intro h
  obtain ⟨ha, _⟩ := (c47_told sample _ _ 2 7 rfl).1 h
  obtain ⟨r, _, h2, h3⟩ := ((c49_activation sample _ hb).2 2 rfl).1 ha
  have hr : r = 4 := by
    unfold held at h2
    by_cases h : r = 4
    · exact h
    · have : ¬ 4 = r := fun h' => h h'.symm
      simp [this] at h2
  subst hr
  -- the alias keeps only itself active
  have : ∀ c, Keeps sample 4 c → c = 4 := by
    intro c hk
    induction hk with
    | self => rfl
    | act _ _ hm ih => subst ih; simp [sample, sampleKind, sampleKinds, Kind.acts] at hm
  have := this 2 h3
  omega

/-- The sample has no lookup with many parameters; after adding and removing a listener nothing is left. -/
example : ∀ i, (sample.run [.listen 3 7, .activate 3, .unlisten 3 7]).listeners i = [] := by
  refine c48_torn_down_partial sample ?_ _ (fun e n => ?_)
  · intro e n ps t h
    match e with
    | 0 | 1 | 3 | 4 => simp [sample, sampleKind, sampleKinds] at h
    | 2 => simp only [sample, sampleKind, sampleKinds, List.getD_cons_succ, List.getD_cons_zero] at h; cases h; decide
    | e + 5 => simp [sample, sampleKind, sampleKinds] at h
  · simp only [Graph.listening, List.foldl_cons, List.foldl_nil, Bool.false_or, Bool.and_not_self]

end Verif.Notify
