import Verif.Keys.Lemmas
import Verif.Props.Value
import Mathlib.Data.List.Nodup
/-!
C76 (states as keys of the cache), C77 (states as bytes), C78 (sorted vectors as maps and sets; variable maps).
-/
namespace Verif.Keys
open Verif.Value

/-! ## C76 -/

/-- **C76, the order.**  On states without NaN, `<` is a strict weak order, and two states are neither less nor greater exactly if they have the same name, as many parameters, and the same
parameters (numbers by value, arrays by their known elements). -/
theorem c76_order (a b d : State) (ha : a.Ordinary) (hb : b.Ordinary) (hd : d.Ordinary) :
    a.lt a = false ∧ (a.lt b = true → b.lt d = true → a.lt d = true) ∧ ((a.lt b = false ∧ b.lt a = false) ↔ SameState a b) := by
  rw [lt_eq_llex a a ha ha, lt_eq_llex a b ha hb, lt_eq_llex b d hb hd, lt_eq_llex a d ha hd, lt_eq_llex b a hb ha, sameState_iff a b ha hb]
  refine ⟨llex_irrefl _, llex_trans _ _ _, fun h => llex_total _ _ h.1 h.2, ?_⟩
  intro h; rw [h]; exact ⟨llex_irrefl _, llex_irrefl _⟩

/-- The invariant of the cache. -/
structure Cache.Inv (c : Cache) : Prop where
  ord : ∀ e ∈ c.map, e.1.Ordinary
  sorted : c.map.Pairwise fun x y => x.1.lt y.1 = true
  below : ∀ e ∈ c.map, e.2 < c.next
  distinct : (c.map.map Prod.snd).Nodup

theorem ensure_spec (c : Cache) (hc : c.Inv) (s : State) (hs : s.Ordinary) :
    (c.ensure s).1.Inv ∧ (∀ e ∈ c.map, e ∈ (c.ensure s).1.map) ∧ ∃ s', (s', (c.ensure s).2) ∈ (c.ensure s).1.map ∧ s'.key = s.key := by
  obtain ⟨a, b, hm, h1, h2, h3⟩ := lowerBound_split (fun e => e.1.lt s) c.map (by
    refine List.Pairwise.imp_of_mem ?_ hc.sorted
    intro x y hx hy hxy h
    have ox := hc.ord x hx
    have oy := hc.ord y hy
    rw [lt_eq_llex _ _ ox hs]
    rw [lt_eq_llex _ _ ox oy] at hxy
    rw [lt_eq_llex _ _ oy hs] at h
    exact llex_trans _ _ _ hxy h)
  have new : (∀ x ∈ b, s.lt x.1 = true) →
      Cache.Inv { map := a ++ (s, c.next) :: b, next := c.next + 1 } ∧ (∀ e ∈ c.map, e ∈ a ++ (s, c.next) :: b) ∧
        ∃ s', (s', c.next) ∈ a ++ (s, c.next) :: b ∧ s'.key = s.key := by
    intro hb
    have hsort := hc.sorted
    have hdis := hc.distinct
    have hbel := hc.below
    rw [hm] at hsort hdis hbel
    rw [List.pairwise_append] at hsort
    refine ⟨⟨?_, ?_, ?_, ?_⟩, ?_, s, by simp, rfl⟩
    · intro e he
      rcases List.mem_append.mp he with he | he
      · exact hc.ord e (by rw [hm]; simp [he])
      · rcases List.mem_cons.mp he with rfl | he
        · exact hs
        · exact hc.ord e (by rw [hm]; simp [he])
    · rw [List.pairwise_append, List.pairwise_cons]
      refine ⟨hsort.1, ⟨hb, hsort.2.1⟩, fun x hx y hy => ?_⟩
      rcases List.mem_cons.mp hy with rfl | hy
      · exact h2 x hx
      · exact hsort.2.2 x hx y hy
    · intro e he
      show e.2 < c.next + 1
      rcases List.mem_append.mp he with he | he
      · have := hbel e (by simp [he]); omega
      · rcases List.mem_cons.mp he with rfl | he
        · exact Nat.lt_succ_self _
        · have := hbel e (by simp [he]); omega
    · show ((a ++ (s, c.next) :: b).map Prod.snd).Nodup
      rw [List.map_append, List.map_cons]
      rw [List.map_append] at hdis
      refine (List.perm_middle.nodup_iff).mpr (List.nodup_cons.mpr ⟨?_, hdis⟩)
      rw [← List.map_append]
      intro h
      obtain ⟨e, he, h⟩ := List.mem_map.mp h
      have := hbel e he
      simp only at h; omega
    · intro e he
      rw [hm] at he
      rcases List.mem_append.mp he with he | he <;> simp [he]
  have hi : c.map.insertIdx a.length (s, c.next) = a ++ (s, c.next) :: b := by
    rw [hm]; exact insertIdx_append _ _ _
  have hg : c.map[a.length]? = b.head? := by rw [hm]; exact getElem?_mid _ _
  unfold Cache.ensure
  simp only [h1, hg, hi]
  cases b with
  | nil => exact new (by simp)
  | cons e b =>
    have oe := hc.ord e (by rw [hm]; simp)
    simp only [List.head?_cons]
    by_cases hl : s.lt e.1 = true
    · rw [if_pos hl]
      apply new
      intro x hx
      rcases List.mem_cons.mp hx with rfl | hx
      · exact hl
      · have hsort := hc.sorted
        rw [hm, List.pairwise_append, List.pairwise_cons] at hsort
        have ox := hc.ord x (by rw [hm]; simp [hx])
        have := hsort.2.1.1 x hx
        rw [lt_eq_llex _ _ oe ox] at this
        rw [lt_eq_llex _ _ hs oe] at hl
        rw [lt_eq_llex _ _ hs ox]
        exact llex_trans _ _ _ hl this
    · rw [if_neg hl]
      refine ⟨hc, fun e he => he, e.1, by rw [hm]; simp, ?_⟩
      have := h3 e (by simp)
      rw [lt_eq_llex _ _ oe hs] at this
      rw [lt_eq_llex _ _ hs oe] at hl
      exact llex_total _ _ this (by simpa using hl)

theorem requests_spec (ss : List State) : ∀ (c : Cache), c.Inv → (∀ s ∈ ss, s.Ordinary) →
    ∃ c' : Cache, c'.Inv ∧ (∀ e ∈ c.map, e ∈ c'.map) ∧ (requests ss c).length = ss.length ∧
      ∀ i (hi : i < ss.length), ∃ s' n, (requests ss c)[i]? = some n ∧ (s', n) ∈ c'.map ∧ s'.key = (ss[i]).key := by
  induction ss with
  | nil => intro c hc _; exact ⟨c, hc, fun e h => h, rfl, fun i hi => absurd hi (by simp)⟩
  | cons s ss ih =>
    intro c hc ho
    obtain ⟨h1, h2, s', h3, h4⟩ := ensure_spec c hc s (ho s (by simp))
    obtain ⟨c', k1, k2, k3, k4⟩ := ih _ h1 (fun s hs => ho s (by simp [hs]))
    refine ⟨c', k1, fun e he => k2 _ (h2 e he), by simp [requests, k3], ?_⟩
    intro i hi
    cases i with
    | zero => exact ⟨s', _, rfl, k2 _ h3, h4⟩
    | succ i =>
      obtain ⟨s'', n, e1, e2, e3⟩ := k4 i (by simpa using hi)
      exact ⟨s'', n, by simpa [requests] using e1, e2, by simpa using e3⟩

theorem pairwise_eq {α β : Type} {f : α → β} : ∀ {l : List α}, l.Pairwise (fun x y => f x ≠ f y) → ∀ {x y}, x ∈ l → y ∈ l → f x = f y → x = y
  | z :: l, h, x, y, hx, hy, e => by
    rw [List.pairwise_cons] at h
    rcases List.mem_cons.mp hx with rfl | hx' <;> rcases List.mem_cons.mp hy with rfl | hy'
    · rfl
    · exact absurd e (h.1 y hy')
    · exact absurd e.symm (h.1 x hx')
    · exact pairwise_eq h.2 hx' hy' e

/-- **C76, the cache.**  For every history of requests (lookups, updates from interfaces) with states without NaN: two requests get the same cache entry exactly if their states are the same.  So no
lookup ever sees the value of another state, and all lookups of one state share one value. -/
theorem c76_entries (ss : List State) (ho : ∀ s ∈ ss, s.Ordinary) :
    (requests ss {}).length = ss.length ∧
    ∀ i j (hi : i < ss.length) (hj : j < ss.length), (requests ss {})[i]? = (requests ss {})[j]? ↔ SameState (ss[i]) (ss[j]) := by
  obtain ⟨c, h1, -, h2, h3⟩ := requests_spec ss {} ⟨by simp, by simp, by simp, by simp⟩ ho
  refine ⟨h2, fun i j hi hj => ?_⟩
  obtain ⟨a, n, e1, e2, e3⟩ := h3 i hi
  obtain ⟨b, m, f1, f2, f3⟩ := h3 j hj
  rw [e1, f1, sameState_iff _ _ (ho _ (List.getElem_mem hi)) (ho _ (List.getElem_mem hj)), ← e3, ← f3, Option.some.injEq]
  constructor
  · rintro rfl
    have hd : c.map.Pairwise fun x y => x.2 ≠ y.2 := by have := h1.distinct; rwa [List.Nodup, List.pairwise_map] at this
    have := pairwise_eq hd e2 f2 rfl
    injection this with this; rw [this]
  · intro hk
    have key : ∀ x ∈ c.map, ∀ y ∈ c.map, x.1.key = y.1.key → x = y := by
      have : c.map.Pairwise fun x y => x.1.key ≠ y.1.key := by
        refine List.Pairwise.imp_of_mem ?_ h1.sorted
        intro x y hx hy hxy h
        rw [lt_eq_llex _ _ (h1.ord x hx) (h1.ord y hy), h, llex_irrefl] at hxy
        cases hxy
      intro x hx y hy hxy
      exact pairwise_eq this hx hy hxy
    have := key _ e2 _ f2 hk
    injection this

set_option maxRecDepth 8000 in
/-- The hypotheses are met: four requests, of which the first, third and fourth are the same state (an Integer and a Real parameter of one value). -/
theorem c76_example : requests [⟨[97#8], [.known (.int 1#32)]⟩, ⟨[97#8], [.known (.int 2#32)]⟩, ⟨[97#8], [.known (.real 0x3FF0000000000000#64)]⟩,
    ⟨[97#8], [.known (.int 1#32)]⟩] {} = [0, 1, 0, 0] := by
  decide

/-- **Without the hypothesis C76 is false**: a NaN parameter is neither less nor greater than any number, so a lookup with it gets the entry of another state. -/
theorem c76_nan : requests [⟨[97#8], [.known (.int 1#32)]⟩, ⟨[97#8], [.known (.real 0x7FF8000000000000#64)]⟩] {} = [0, 0] := by
  decide

/-! ## C77 -/

theorem desParams_eq (cs : Bool) (k : Nat) : desParams cs k = Verif.Props.Value.readMany cs k := by
  induction k with
  | zero => rfl
  | succ k ih => rw [desParams, ih]; rfl

theorem serParams_some : ∀ (vs : List Value) (bs : List Byte), serParams vs = some bs →
    ∃ bss : List (List Byte), vs.map Value.serialize = bss.map some ∧ bs = bss.flatten
  | [], bs, h => ⟨[], rfl, by simpa [serParams] using h.symm⟩
  | v :: vs, bs, h => by
    rw [serParams] at h
    split at h
    · cases h
    · rename_i b hb
      obtain ⟨r, hr, rfl⟩ := Option.map_eq_some_iff.mp h
      obtain ⟨bss, h1, rfl⟩ := serParams_some vs r hr
      exact ⟨b :: bss, by simp [hb, h1], rfl⟩

theorem str_ser {s : Str} {nm : List Byte} (h : (Value.known (.str s)).serialize = some nm) : Reads desString nm s := by
  simp only [Value.serialize] at h
  obtain ⟨r, hr, rfl⟩ := Option.map_eq_some_iff.mp h
  exact Reads.cons (reads_tag .string) (reads_str hr)

/-- **C77, round trip.**  Every state with fewer than 2^24 parameters that is written is read back: name and parameters (unknown values without their type); the reader stops right behind it,
whatever follows, and exactly `serialSize` bytes are written.  (Arrays whose size has a byte of 128 or more need an unsigned `char`, as in C24.) -/
theorem c77_round_trip (charSigned : Bool) (s : State) (bs rest : List Byte) (h : s.serialize = .bytes bs) (hn : s.params.length < 2 ^ 24)
    (hw : ∀ v ∈ s.params, Verif.Props.Value.ArraysOk v)
    (hc : charSigned = false ∨ ∀ v ∈ s.params, ∀ n, Verif.Props.Value.arraySize v = some n → n % 256 < 128 ∧ n / 256 % 256 < 128 ∧ n / 65536 < 128) :
    State.deserialize charSigned (bs ++ rest) = .ok ⟨s.name, s.params.map Verif.Props.Value.afterTransport⟩ rest ∧ bs.length = s.serialSize := by
  unfold State.serialize at h
  split at h
  · cases h
  · rename_i nm hnm
    split at h
    · cases h
    · rename_i ps hps
      injection h with h
      subst h
      obtain ⟨bss, h1, rfl⟩ := serParams_some _ _ hps
      constructor
      · have hname : Reads (orCrash desString) nm s.name := by
          intro rest
          have := str_ser hnm rest
          rw [orCrash, this]
        have hpar : Reads (desParams charSigned s.params.length) bss.flatten (s.params.map Verif.Props.Value.afterTransport) := by
          rw [desParams_eq]
          exact fun rest => Verif.Props.Value.C23_message_round_trip charSigned s.params bss rest h1 hw hc
        have : Reads (State.deserialize charSigned) (tag .stateT :: nm ++ serSize s.params.length ++ bss.flatten)
            ⟨s.name, s.params.map Verif.Props.Value.afterTransport⟩ := by
          have e : tag .stateT :: nm ++ serSize s.params.length ++ bss.flatten = [tag .stateT] ++ (nm ++ (serSize s.params.length ++ (bss.flatten ++ []))) := by simp
          rw [e]
          exact Reads.bind (reads_tag _) (Reads.bind hname (Reads.bind (reads_sizeUnsigned _ (by omega)) (Reads.bind hpar (Reads.pure _))))
        exact this rest
      · have l1 : nm.length = (Value.known (.str s.name)).serialSize := Verif.Props.Value.C25_serialSize_exact _ _ trivial hnm
        have l2 : ∀ (vs : List Value) (bss : List (List Byte)), (∀ v ∈ vs, Verif.Props.Value.ArraysOk v) → vs.map Value.serialize = bss.map some →
            bss.flatten.length = (vs.map Value.serialSize).sum := by
          intro vs
          induction vs with
          | nil => intro bss _ h; cases bss with
            | nil => rfl
            | cons => simp at h
          | cons v vs ih =>
            intro bss hw h
            cases bss with
            | nil => simp at h
            | cons b bss =>
              simp only [List.map_cons, List.cons.injEq] at h
              rw [List.flatten_cons, List.length_append, List.map_cons, List.sum_cons, ih bss (fun v hv => hw v (by simp [hv])) h.2,
                Verif.Props.Value.C25_serialSize_exact v b (hw v (by simp)) h.1]
        have l3 := l2 _ _ hw h1
        simp only [List.length_append, List.length_cons, l1, l3, State.serialSize, serSize, List.length_nil]
        omega

/-- **C77, what can be written.**  A state is refused (null) exactly if its name fits and some parameter cannot be written; a name of 2^24 bytes or more crashes the writer, which uses the null
pointer (`State.cc:221-224`). -/
theorem c77_refused (s : State) :
    (s.serialize = .null ↔ s.name.length < 2 ^ 24 ∧ ∃ v ∈ s.params, v.serialize = none) ∧ (s.serialize = .crash ↔ 2 ^ 24 ≤ s.name.length) := by
  have hp : ∀ vs, serParams vs = none ↔ ∃ v ∈ vs, v.serialize = none := by
    intro vs
    induction vs with
    | nil => simp [serParams]
    | cons v vs ih =>
      rw [serParams]
      cases hv : v.serialize with
      | none => simp [hv]
      | some b => simp [hv, ih]
  rw [← hp]
  unfold State.serialize
  by_cases h : s.name.length > 0xFFFFFF
  · have hn : (Value.known (.str s.name)).serialize = none := by simp only [Value.serialize, serStrElt, if_pos h, Option.map_none]
    rw [hn]
    simp only [reduceCtorEq, false_iff, true_iff]
    omega
  · obtain ⟨nm, hn⟩ : ∃ nm, (Value.known (.str s.name)).serialize = some nm := by
      simp only [Value.serialize, serStrElt, if_neg h, Option.map_some]; exact ⟨_, rfl⟩
    rw [hn]
    cases serParams s.params with
    | none => simp; omega
    | some ps => simp; omega

/-- **C77 is false for 2^24 parameters or more**: the count is cut to three bytes; with exactly 2^24 the reader sees a state without parameters and stops in the middle. -/
theorem c77_count (charSigned : Bool) (s : State) (bs rest : List Byte) (h : s.serialize = .bytes bs) (hn : s.params.length = 2 ^ 24) :
    ∃ rest', State.deserialize charSigned (bs ++ rest) = .ok ⟨s.name, []⟩ rest' := by
  unfold State.serialize at h
  split at h
  · cases h
  · rename_i nm hnm
    split at h
    · cases h
    · rename_i ps hps
      injection h with h
      subst h
      have hz : serSize s.params.length = serSize 0 := by rw [hn]; decide
      have hname : Reads (orCrash desString) nm s.name := by
        intro rest
        have := str_ser hnm rest
        rw [orCrash, this]
      have : Reads (State.deserialize charSigned) ([tag .stateT] ++ (nm ++ (serSize 0 ++ ([] ++ [])))) ⟨s.name, []⟩ :=
        Reads.bind (reads_tag _) (Reads.bind hname (Reads.bind (reads_sizeUnsigned _ (by omega)) (Reads.bind (Reads.pure _) (Reads.pure _))))
      refine ⟨ps ++ rest, ?_⟩
      have := this (ps ++ rest)
      rw [hz]
      simpa using this

theorem c77_example : (State.mk [97#8] [.known (.int 1#32), .unknown .real]).serialize = .bytes
    [32#8, 4#8, 0#8, 0#8, 1#8, 97#8, 0#8, 0#8, 2#8, 2#8, 0#8, 0#8, 0#8, 1#8, 0#8] := by decide

/-! ## C78 -/

/-- **C78, maps.**  For every good comparator and every history of operations, `SimpleMap` answers like a map, and its entries are sorted (so it can be iterated in order, and no key is there twice). -/
theorem c78_map {K V : Type} [DecidableEq K] (c : Comp K) (hc : c.Good) (dflt : V) (os : List (MapOp K V)) :
    (runMap c dflt os []).2 = (specMap dflt os fun _ => none).2 ∧
    (runMap c dflt os []).1.Pairwise (fun x y => c.lt x.1 y.1 = true) ∧
    ∀ k v, (k, v) ∈ (runMap c dflt os []).1 ↔ (specMap dflt os fun _ => none).1 k = some v := by
  have main : ∀ (os : List (MapOp K V)) (m : List (K × V)), Sorted c m →
      (runMap c dflt os m).2 = (specMap dflt os (val m)).2 ∧ Sorted c (runMap c dflt os m).1 ∧ val (runMap c dflt os m).1 = (specMap dflt os (val m)).1 := by
    intro os
    induction os with
    | nil => intro m hm; exact ⟨rfl, hm, rfl⟩
    | cons o os ih =>
      intro m hm
      have step : Sorted c (o.run c dflt m).1 ∧ val (o.run c dflt m).1 = (o.spec dflt (val m)).1 ∧ (o.run c dflt m).2 = (o.spec dflt (val m)).2 := by
        cases o with
        | insert k v =>
          obtain ⟨⟨h1, h2, h3⟩, -⟩ := ops_spec hc dflt m hm k v
          simp only [MapOp.run, MapOp.spec]
          cases hv : val m k with
          | none => exact ⟨h1, (h2 hv).2, by rw [(h2 hv).1]⟩
          | some w => rw [h3 ⟨w, hv⟩]; exact ⟨hm, rfl, rfl⟩
        | assign k v =>
          obtain ⟨-, ⟨h1, h2⟩, -⟩ := ops_spec hc dflt m hm k v
          exact ⟨h1, h2, rfl⟩
        | read k =>
          obtain ⟨-, -, h1, -⟩ := ops_spec hc dflt m hm k dflt
          exact ⟨hm, rfl, by simp only [MapOp.run, MapOp.spec, h1]⟩
        | find k =>
          obtain ⟨-, -, -, h1⟩ := ops_spec hc dflt m hm k dflt
          exact ⟨hm, rfl, by simp only [MapOp.run, MapOp.spec, h1]⟩
      obtain ⟨h1, h2, h3⟩ := ih _ step.1
      simp only [runMap, specMap, ← step.2.1, ← step.2.2]
      exact ⟨by rw [h1], h2, h3⟩
  obtain ⟨h1, h2, h3⟩ := main os [] List.Pairwise.nil
  have hn : val ([] : List (K × V)) = fun _ => none := rfl
  rw [hn] at h1 h3
  refine ⟨h1, h2, fun k v => ?_⟩
  rw [← h3]
  generalize (runMap c dflt os []).1 = m at h2
  clear h1 h3
  induction m with
  | nil => simp [val]
  | cons e m ih =>
    rw [Sorted, List.pairwise_cons] at h2
    rw [val_cons, List.mem_cons, ih h2.2]
    by_cases he : e.1 = k
    · rw [if_pos he]
      have : val m k = none := val_none fun x hx hk => by
        have := h2.1 x hx
        rw [he, hk, hc.irrefl] at this; cases this
      rw [this]
      subst he
      simp only [Option.some.injEq, reduceCtorEq, or_false]
      constructor
      · intro h; rw [← h]
      · rintro rfl; rfl
    · rw [if_neg he]
      constructor
      · rintro (h | h)
        · rw [← h] at he; exact absurd rfl he
        · exact h
      · exact .inr

/-- The comparator of names (`strcmp`) is good. -/
theorem c78_cString : cString.Good where
  irrefl a := ((str_iff a a).mp rfl).1
  trans a b d := by
    show strLt a b = true → strLt b d = true → strLt a d = true
    rw [codes_str.lt_iff trivial trivial, codes_str.lt_iff trivial trivial, codes_str.lt_iff trivial trivial]
    exact ilex_trans _ _ _
  total a b h1 h2 := (str_iff a b).mpr ⟨h1, h2⟩
  equal a b := by simp [cString]

/-- **C78, sets.**  For every strict total order and every history of operations, `SimpleSet` answers like a set, and is sorted. -/
theorem c78_set {K : Type} [DecidableEq K] (lt : K → K → Bool) (h1 : ∀ a, lt a a = false) (h2 : ∀ a b d, lt a b = true → lt b d = true → lt a d = true)
    (h3 : ∀ a b, lt a b = false → lt b a = false → a = b) (os : List (SetOp K)) :
    (runSet lt os []).2 = (specSet os fun _ => false).2 ∧ (runSet lt os []).1.Pairwise (fun x y => lt x y = true) ∧
    ∀ k, k ∈ (runSet lt os []).1 ↔ (specSet os fun _ => false).1 k = true := by
  have eqv : ∀ a b, (!lt a b && !lt b a) = true ↔ a = b := by
    intro a b
    simp only [Bool.and_eq_true, Bool.not_eq_true']
    exact ⟨fun h => h3 a b h.1 h.2, by rintro rfl; exact ⟨h1 a, h1 a⟩⟩
  have main : ∀ (os : List (SetOp K)) (s : List K), s.Pairwise (fun x y => lt x y = true) →
      (runSet lt os s).2 = (specSet os fun k => decide (k ∈ s)).2 ∧ (runSet lt os s).1.Pairwise (fun x y => lt x y = true) ∧
        (fun k => decide (k ∈ (runSet lt os s).1)) = (specSet os fun k => decide (k ∈ s)).1 := by
    intro os
    induction os with
    | nil => intro s hs; exact ⟨rfl, hs, rfl⟩
    | cons o os ih =>
      intro s hs
      have step : (o.run lt s).1.Pairwise (fun x y => lt x y = true) ∧ (fun k => decide (k ∈ (o.run lt s).1)) = (o.spec fun k => decide (k ∈ s)).1 ∧
          (o.run lt s).2 = (o.spec fun k => decide (k ∈ s)).2 := by
        have sp : ∀ k, ∃ a b, lowerBound (fun e => lt e k) s = a.length ∧ (∀ x ∈ a, lt x k = true) ∧ (∀ x ∈ b, lt k x = true) ∧ (s = a ++ k :: b ∨ s = a ++ b) := by
          intro k
          obtain ⟨a, b, hsab, e1, e2, e3⟩ := lowerBound_split (fun e => lt e k) s (hs.imp fun hxy hy => h2 _ _ _ hxy hy)
          have hb : b.Pairwise fun x y => lt x y = true := by rw [hsab] at hs; exact (List.pairwise_append.mp hs).2.1
          cases b with
          | nil => exact ⟨a, [], e1, e2, by simp, .inr hsab⟩
          | cons e b =>
            rw [List.pairwise_cons] at hb
            by_cases he : e = k
            · subst he; exact ⟨a, b, e1, e2, hb.1, .inl hsab⟩
            · have hke : lt k e = true := by
                cases h : lt k e with
                | true => rfl
                | false => exact absurd (h3 _ _ (e3 e (by simp)) h) he
              refine ⟨a, e :: b, e1, e2, ?_, .inr hsab⟩
              intro x hx
              rcases List.mem_cons.mp hx with rfl | hx
              · exact hke
              · exact h2 _ _ _ hke (hb.1 x hx)
        have nin : ∀ (k : K) (a b : List K), (∀ x ∈ a, lt x k = true) → (∀ x ∈ b, lt k x = true) → k ∉ a ∧ k ∉ b := by
          intro k a b ha hb
          exact ⟨fun h => by (have := ha k h; rw [h1] at this; cases this), fun h => by (have := hb k h; rw [h1] at this; cases this)⟩
        have nhead : ∀ (k : K) (e : K), lt k e = true → (!lt e k && !lt k e) = false := by
          intro k e h; rw [h]; simp
        cases o with
        | insert k =>
          obtain ⟨a, b, e1, e2, e3, e4⟩ := sp k
          obtain ⟨na, nb⟩ := nin k a b e2 e3
          simp only [SetOp.run, SetOp.spec]
          rcases e4 with e4 | e4
          · have : setInsert lt s k = (false, s) := by
              simp only [setInsert, e1]
              rw [show s[a.length]? = some k by rw [e4, getElem?_mid]; rfl]
              simp [h1]
            simp only [this]
            refine ⟨hs, ?_, by rw [e4]; simp⟩
            funext x
            by_cases hx : x = k
            · subst hx; rw [e4]; simp
            · simp [hx]
          · have : setInsert lt s k = (true, a ++ k :: b) := by
              simp only [setInsert, e1]
              rw [show s[a.length]? = b.head? by rw [e4, getElem?_mid], show s.insertIdx a.length k = a ++ k :: b by rw [e4, insertIdx_append]]
              cases b with
              | nil => rfl
              | cons e b => simp only [List.head?_cons, nhead k e (e3 e (by simp)), Bool.false_eq_true, if_false]
            simp only [this]
            refine ⟨?_, ?_, by rw [e4]; simp [na, nb]⟩
            · rw [e4, List.pairwise_append] at hs
              rw [List.pairwise_append, List.pairwise_cons]
              refine ⟨hs.1, ⟨e3, hs.2.1⟩, fun x hx y hy => ?_⟩
              rcases List.mem_cons.mp hy with rfl | hy
              · exact e2 x hx
              · exact hs.2.2 x hx y hy
            · funext x
              rw [e4]
              by_cases hx : x = k <;> simp [hx]
        | erase k =>
          obtain ⟨a, b, e1, e2, e3, e4⟩ := sp k
          obtain ⟨na, nb⟩ := nin k a b e2 e3
          simp only [SetOp.run, SetOp.spec]
          rcases e4 with e4 | e4
          · have hf : setFind lt s k = a.length := by
              simp only [setFind, e1]
              rw [show s[a.length]? = some k by rw [e4, getElem?_mid]; rfl]
              simp [h1]
            have : setErase lt s k = (true, a ++ b) := by
              simp only [setErase, hf]
              rw [if_neg (by rw [e4]; simp), e4, eraseIdx_append_cons]
            simp only [this]
            refine ⟨?_, ?_, by rw [e4]; simp⟩
            · rw [e4, List.pairwise_append, List.pairwise_cons] at hs
              rw [List.pairwise_append]
              exact ⟨hs.1, hs.2.1.2, fun x hx y hy => hs.2.2 x hx y (by simp [hy])⟩
            · funext x
              rw [e4]
              by_cases hx : x = k
              · subst hx; simp [na, nb]
              · simp [hx]
          · have hf : setFind lt s k = s.length := by
              simp only [setFind, e1]
              rw [show s[a.length]? = b.head? by rw [e4, getElem?_mid]]
              cases b with
              | nil => rw [e4]; simp
              | cons e b => simp only [List.head?_cons, nhead k e (e3 e (by simp)), Bool.false_eq_true, if_false]
            have : setErase lt s k = (false, s) := by simp only [setErase, hf, if_true]
            simp only [this]
            refine ⟨hs, ?_, by rw [e4]; simp [na, nb]⟩
            funext x
            by_cases hx : x = k
            · subst hx; rw [e4]; simp [na, nb]
            · simp [hx]
        | contains k =>
          obtain ⟨a, b, e1, e2, e3, e4⟩ := sp k
          obtain ⟨na, nb⟩ := nin k a b e2 e3
          refine ⟨hs, rfl, ?_⟩
          simp only [SetOp.run, SetOp.spec, setContains, e1]
          rcases e4 with e4 | e4
          · rw [show s[a.length]? = some k by rw [e4, getElem?_mid]; rfl, e4]
            simp [h1]
          · rw [show s[a.length]? = b.head? by rw [e4, getElem?_mid], e4]
            cases b with
            | nil => simp [na]
            | cons e b => 
              have hk := e3 e (by simp)
              simp [hk, na, nb]
      obtain ⟨k1, k2, k3⟩ := ih _ step.1
      simp only [runSet, specSet, ← step.2.1, ← step.2.2]
      exact ⟨by rw [k1], k2, k3⟩
  obtain ⟨k1, k2, k3⟩ := main os [] List.Pairwise.nil
  have hn : (fun k => decide (k ∈ ([] : List K))) = fun _ => false := by funext k; simp
  rw [hn] at k1 k3
  refine ⟨k1, k2, fun k => ?_⟩
  rw [← k3]; simp

/-- **C78, variables.**  For any declarations in a node and its ancestors, in any order and any number: a name is found exactly if some map has a declaration of it; what is found is
the first declaration of the nearest map that has one. -/
theorem c78_variables {V : Type} (ds : List (List (Str × V))) (x : Str) (v : V) :
    findVariable (ds.map fun d => fill d []) x = some v ↔
      ∃ far d near, ds = near ++ d :: far ∧ (∀ n ∈ near, ∀ w, (x, w) ∉ n) ∧ ∃ d1 d2, d = d1 ++ (x, v) :: d2 ∧ ∀ w, (x, w) ∉ d1 := by
  have hfill : ∀ (d : List (Str × V)) (m : List (Str × V)), Sorted cString m →
      Sorted cString (fill d m) ∧ ∀ y, val (fill d m) y = (val m y).or (val d y) := by
    intro d
    induction d with
    | nil => intro m hm; exact ⟨hm, fun y => by simp [fill, val]⟩
    | cons e d ih =>
      intro m hm
      obtain ⟨⟨h1, h2, h3⟩, -⟩ := ops_spec c78_cString e.2 m hm e.1 e.2
      obtain ⟨k1, k2⟩ := ih _ h1
      refine ⟨k1, fun y => ?_⟩
      rw [fill, k2, val_cons]
      cases hv : val m e.1 with
      | none =>
        rw [(h2 hv).2]
        by_cases hy : y = e.1
        · subst hy; rw [hv]; simp
        · show (if y = e.1 then _ else _ : Option V).or _ = _
          rw [if_neg hy, if_neg (Ne.symm hy)]
      | some w =>
        rw [h3 ⟨w, hv⟩]
        by_cases hy : e.1 = y
        · subst hy; rw [hv]; rfl
        · rw [if_neg hy]
  have hval : ∀ (d : List (Str × V)) (v : V), val d x = some v ↔ ∃ d1 d2, d = d1 ++ (x, v) :: d2 ∧ ∀ w, (x, w) ∉ d1 := by
    intro d v
    induction d with
    | nil => simp [val]
    | cons e d ih =>
      rw [val_cons]
      by_cases he : e.1 = x
      · rw [if_pos he]
        constructor
        · intro h
          injection h with h
          exact ⟨[], d, by rw [← he, ← h]; rfl, by simp⟩
        · rintro ⟨d1, d2, h, hn⟩
          cases d1 with
          | nil => simp only [List.nil_append, List.cons.injEq] at h; rw [h.1]
          | cons f d1 =>
            simp only [List.cons_append, List.cons.injEq] at h
            exact absurd (List.mem_cons.mpr (.inl (by rw [← he, h.1]))) (hn f.2)
      · rw [if_neg he, ih]
        constructor
        · rintro ⟨d1, d2, rfl, hn⟩
          refine ⟨e :: d1, d2, rfl, fun w hw => ?_⟩
          rcases List.mem_cons.mp hw with h | h
          · exact he (by rw [← h])
          · exact hn w h
        · rintro ⟨d1, d2, h, hn⟩
          cases d1 with
          | nil => simp only [List.nil_append, List.cons.injEq] at h; rw [h.1] at he; exact absurd rfl he
          | cons f d1 =>
            simp only [List.cons_append, List.cons.injEq] at h
            exact ⟨d1, d2, h.2, fun w hw => hn w (List.mem_cons_of_mem _ hw)⟩
  have hnone : ∀ (d : List (Str × V)), val d x = none ↔ ∀ w, (x, w) ∉ d := by
    intro d
    constructor
    · intro h w hw
      rw [val, Option.map_eq_none_iff, List.find?_eq_none] at h
      exact h _ hw (by simp)
    · intro h
      exact val_none fun e he hx => h e.2 (by rw [← hx]; exact he)
  induction ds with
  | nil => simp [findVariable]
  | cons d ds ih =>
    obtain ⟨s1, s2⟩ := hfill d [] List.Pairwise.nil
    have hf := (ops_spec (c := cString) c78_cString v (fill d []) s1 x v).2.2.2
    rw [s2 x, show val ([] : List (Str × V)) x = none from rfl, Option.none_or] at hf
    rw [List.map_cons, findVariable]
    cases hg : (fill d [])[find cString (fill d []) x]? with
    | some e =>
      rw [hg, Option.map_some] at hf
      simp only [Option.some.injEq]
      constructor
      · rintro rfl
        exact ⟨ds, d, [], rfl, by simp, (hval d _).mp hf.symm⟩
      · rintro ⟨far, d', near, h, hn, hd⟩
        cases near with
        | nil =>
          simp only [List.nil_append, List.cons.injEq] at h
          rw [← h.1] at hd
          have := (hval d v).mpr hd
          rw [← hf] at this
          exact Option.some.inj this
        | cons n near =>
          simp only [List.cons_append, List.cons.injEq] at h
          have := (hnone n).mpr (hn n (by simp))
          rw [← h.1, ← hf] at this
          cases this
    | none =>
      rw [hg, Option.map_none] at hf
      have hd0 := (hnone d).mp hf.symm
      refine Iff.trans ih ?_
      constructor
      · rintro ⟨far, d', near, rfl, hn, hd⟩
        refine ⟨far, d', d :: near, rfl, ?_, hd⟩
        intro n hn'
        rcases List.mem_cons.mp hn' with rfl | hn'
        · exact hd0
        · exact hn n hn'
      · rintro ⟨far, d', near, h, hn, hd⟩
        cases near with
        | nil =>
          simp only [List.nil_append, List.cons.injEq] at h
          obtain ⟨d1, d2, e, -⟩ := hd
          exact absurd (by rw [h.1, e]; simp) (hd0 v)
        | cons n near =>
          simp only [List.cons_append, List.cons.injEq] at h
          exact ⟨far, d', near, h.2, fun m hm => hn m (List.mem_cons_of_mem _ hm), hd⟩

theorem c78_example : (runMap ⟨fun a b => decide (a < b), fun a b => decide (a = b)⟩ 0
    [.insert 5 50, .insert 3 30, .insert 5 51, .assign 3 31, .find 3, .find 4, .read 5] ([] : List (Nat × Nat))).2 =
      [.bool true, .bool true, .bool false, .none, .found (some 31), .found none, .val 50] := by
  decide

end Verif.Keys
