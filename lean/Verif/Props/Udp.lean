import Verif.Udp.Lemmas
import Mathlib.Data.Nat.Digits.Lemmas
/-!
UDP messages: C69 (what is sent arrives), C70 (received messages and waiting commands are paired in order), C71 (parameters belong to their message).
-/
namespace Verif.Udp
variable {F : Flt}

/-! ## C69 -/

/-- **C69, the layout.**  For every message definition and all values: the message can be formatted exactly when there is one value for each parameter and
each can be sent (known, of the type, within the range, the size and the length declared); nothing is ever written outside the buffer; the
buffer is filled exactly; and a receiver with the same definition gets, in order, the same values — reals in single precision, strings up to the
first zero byte. -/
theorem c69_layout (ps : List Param) (hp : ∀ p ∈ ps, p.valid = true) (vs : List (Val F)) (hw : ∀ v ∈ vs, v.wf) :
    (Fits ps vs → ∃ buf, build ps vs (zeros (msgLen ps)) = .ok (buf, msgLen ps) ∧ buf.length = msgLen ps ∧
      handle F ps buf 0 = .ok (vs.map Val.arrives, true)) ∧
    (¬ Fits ps vs → build ps vs (zeros (msgLen ps)) = .fail) := by
  constructor
  · intro hf
    obtain ⟨bs, l, w, r⟩ := writeArgs_fits ps vs hp hw hf
    have w := w [] (msgLen ps) (Nat.le_refl _)
    have r := r [] []
    simp only [List.nil_append, List.length_nil, Nat.sub_self, List.replicate_zero, List.append_nil, Nat.zero_add] at w r
    exact ⟨bs, by rw [build, if_neg (by simp [hf.length]), w], l, r⟩
  · intro hf
    unfold build
    by_cases hl : vs.length = ps.length
    · rw [if_neg (by simp [hl])]
      have := writeArgs_not_fit ps vs hp hw hl hf [] (msgLen ps) (Nat.le_refl _)
      simpa using this
    · rw [if_pos hl]

/-- **C69 (partial): sent and received.**  A command that sends a message succeeds exactly when the values fit the definition and the first one is a string; the
receiver, whatever it received before, then gets the values.  The condition on the first value is not part of the property (see `c69_first_string`). -/
theorem c69_sent_partial (ps : List Param) (hp : ∀ p ∈ ps, p.valid = true) (vs : List (Val F)) (hw : ∀ v ∈ vs, v.wf) :
    (∃ r, send ps vs = .ok r ∧ (r.isSome ↔ Fits ps vs ∧ ∃ s rest, vs = .scalar (.str s) :: rest)) ∧
    ∀ buf, send ps vs = .ok (some buf) → ∀ old, old.length = msgLen ps →
      (receive F ps old buf).2 = .ok (vs.map Val.arrives, true) := by
  obtain ⟨h1, h2⟩ := c69_layout ps hp vs hw
  by_cases hs : ∃ s rest, vs = .scalar (.str s) :: rest
  · obtain ⟨s, rest, rfl⟩ := hs
    by_cases hf : Fits ps (.scalar (.str s) :: rest)
    · obtain ⟨buf, hb, hl, hh⟩ := h1 hf
      have hsend : send ps (.scalar (.str s) :: rest : List (Val F)) = .ok (some buf) := by
        simp only [send]; rw [hb]
      refine ⟨⟨some buf, hsend, by simp [hf]⟩, ?_⟩
      intro buf' hb' old ho
      rw [hsend] at hb'
      injection hb' with hb'; injection hb' with hb'; subst hb'
      simp only [receive]
      rw [List.take_of_length_le (by omega), List.drop_of_length_le (by omega), List.append_nil]
      exact hh
    · have hsend : send ps (.scalar (.str s) :: rest : List (Val F)) = .ok none := by
        simp only [send]; rw [h2 hf]
      refine ⟨⟨none, hsend, by simp [hf]⟩, ?_⟩
      intro buf' hb'; rw [hsend] at hb'; injection hb' with hb'; cases hb'
  · have hsend : send ps vs = .ok none := by
      unfold send
      split
      · rename_i s rest; exact absurd ⟨s, rest, rfl⟩ hs
      · rfl
    refine ⟨⟨none, hsend, by simp only [Option.isSome_none, Bool.false_eq_true, false_iff]; exact fun h => hs h.2⟩, ?_⟩
    intro buf' hb'; rw [hsend] at hb'; injection hb' with hb'; cases hb'

theorem Sc.arrives_exact {v : Sc F} (h : v.exact) : v.arrives = v := by
  cases v with
  | bool b => rfl
  | int i => rfl
  | real d => simp only [Sc.arrives]; rw [show F.ofBits (F.toBits d) = d from h]
  | str s =>
    simp only [Sc.arrives]
    congr 1
    have h : 0 ∉ s := h
    clear * - h
    induction s with
    | nil => rfl
    | cons c s ih =>
      simp only [List.mem_cons, not_or] at h
      rw [List.takeWhile_cons_of_pos (by simpa using Ne.symm h.1), ih h.2]

/-- Values without rounding and without zero bytes arrive unchanged. -/
theorem c69_exact (v : Val F) (h : v.exact) : v.arrives = v := by
  cases v with
  | unknown => rfl
  | scalar s => simp only [Val.arrives, Sc.arrives_exact (show s.exact from h)]
  | array b els =>
    simp only [Val.arrives]
    congr 1
    conv_rhs => rw [← List.map_id els]
    apply List.map_congr_left
    intro o ho
    cases o with
    | none => rfl
    | some s => simp only [Option.map_some, id]; rw [Sc.arrives_exact (h s ho)]

/-- **C69, robustness.**  Whatever datagram arrives, of any length and content: nothing is read outside the buffer, and exactly one value of the declared
type and size is delivered for each parameter (given a definition without 2-byte reals, see `c69_float2`). -/
theorem c69_any_datagram (ps : List Param) (hp : ∀ p ∈ ps, p.usable) (old datagram : List Nat) (ho : old.length = msgLen ps) :
    (receive F ps old datagram).1.length = msgLen ps ∧
    ∃ vs : List (Val F), (receive F ps old datagram).2 = .ok (vs, true) ∧ List.Forall₂ (fun p v => v.isOf p) ps vs := by
  have hl : (receive F ps old datagram).1.length = msgLen ps := by simp [receive, ho]
  refine ⟨hl, ?_⟩
  obtain ⟨vs, h1, h2⟩ := handle_ok (F := F) ps hp (receive F ps old datagram).1 0 (by omega)
  exact ⟨vs, h1, h2⟩

/-- A definition and values that fit it: a string, a 2-byte integer, an array of two 1-byte Booleans. -/
theorem c69_example : Fits (F := F) [⟨.string, false, 4, 1⟩, ⟨.int, false, 2, 1⟩, ⟨.bool, true, 1, 2⟩]
      [.scalar (.str [104, 105]), .scalar (.int (-2)), .array .bool [some (.bool true), some (.bool false)]] ∧
    (∀ p ∈ ([⟨.string, false, 4, 1⟩, ⟨.int, false, 2, 1⟩, ⟨.bool, true, 1, 2⟩] : List Param), p.valid = true) ∧
    send (F := F) [⟨.string, false, 4, 1⟩, ⟨.int, false, 2, 1⟩, ⟨.bool, true, 1, 2⟩]
      [.scalar (.str [104, 105]), .scalar (.int (-2)), .array .bool [some (.bool true), some (.bool false)]] =
      .ok (some [104, 105, 0, 0, 255, 254, 1, 0]) := by
  refine ⟨?_, by decide, rfl⟩
  refine ⟨⟨rfl, by simp [Sc.fits]⟩, ⟨rfl, by simp [Sc.fits]⟩, ⟨rfl, rfl, rfl, ?_⟩, trivial⟩
  intro o ho
  simp only [List.mem_cons, List.not_mem_nil, or_false] at ho
  rcases ho with rfl | rfl
  · exact ⟨_, rfl, .inl rfl⟩
  · exact ⟨_, rfl, .inl rfl⟩

/-- **C69 is false in general**: a message whose first parameter is not a string, or that has none, can never be sent (`UdpAdapter.cc:244-256`),
whatever the values. -/
theorem c69_first_string (p : Param) (hp : p.base ≠ .string ∨ p.array = true) (ps : List Param) (vs : List (Val F)) (buf : List Nat) :
    send (p :: ps) vs ≠ .ok (some buf) ∧ send [] vs ≠ .ok (some buf) := by
  constructor
  · unfold send
    split
    · rename_i s rest
      have : build (p :: ps) (.scalar (.str s) :: rest : List (Val F)) (List.replicate (msgLen (p :: ps)) 0) = .fail := by
        unfold build
        split
        · rfl
        · have : ∀ b i, writeArg (F := F) p (.scalar (.str s)) b i = .fail := by
            intro b i
            rw [writeArg]
            rcases hp with hp | hp
            · cases p.array
              · simp only [Bool.false_eq_true, if_false]; rw [if_pos (fun h => hp h.symm)]
              · rfl
            · rw [hp]; rfl
          rw [writeArgs, this]; rfl
      rw [this]; simp
    · simp
  · unfold send
    split
    · rename_i s rest
      rw [build, if_pos (by simp)]; simp
    · simp

/-- A definition with a real in two bytes is accepted (`UdpAdapter.cc:694-702`) although no value can be sent with it, and its parameters from that one on
are never delivered (`897, 1104`). -/
theorem c69_float2 (ps : List Param) (vs : List (Val F)) (hw : ∀ v ∈ vs, v.wf) (hp : ∀ p ∈ ps, p.valid = true) (buf : List Nat) :
    (⟨.float, false, 2, 1⟩ : Param).valid = true ∧
    (⟨.float, false, 2, 1⟩ ∈ ps → send ps vs ≠ .ok (some buf)) ∧
    handle F (⟨.float, false, 2, 1⟩ :: ps) buf 0 = .ok ([], false) := by
  refine ⟨by decide, fun hm hsend => ?_, by simp [handle, readArg, readElem, Out.bind]⟩
  obtain ⟨⟨r, h1, h2⟩, -⟩ := c69_sent_partial ps hp vs hw
  rw [hsend] at h1; injection h1 with h1; subst h1
  have hf := (h2.mp rfl).1
  clear hsend h2 hp
  have : ∀ (ps : List Param) (vs : List (Val F)), (⟨.float, false, 2, 1⟩ : Param) ∈ ps → ¬ Fits ps vs := by
    intro ps
    induction ps with
    | nil => intro vs h; cases h
    | cons p ps ih =>
      intro vs hm hf
      cases vs with
      | nil => exact hf
      | cons v vs =>
        rcases List.mem_cons.mp hm with rfl | hm
        · have := hf.1
          cases v with
          | unknown => exact this
          | scalar s =>
            have h := this.2
            cases s <;> simp [Sc.fits] at h
          | array b els => have h := this.1; simp at h
        · exact ih vs hm hf.2
  exact this ps vs hm hf

/-- A datagram that is too short is accepted, and the rest of the values are those of an earlier datagram (`UdpAdapter.cc:825-991` ignores the length). -/
theorem c69_short_datagram : (receive F [⟨.bool, false, 1, 1⟩, ⟨.bool, false, 1, 1⟩] [1, 1] [0]).2 =
    .ok ([.scalar (.bool false), .scalar (.bool true)], true) := rfl

/-! ## C70 -/

variable {K V C : Type} [DecidableEq K]

theorem pair_spec (cs : List C) (vs : List V) : pair cs vs = (cs.zip vs, { recips := cs.drop vs.length, msgs := vs.drop cs.length }) := by
  induction cs generalizing vs with
  | nil => cases vs <;> simp [pair]
  | cons c cs ih => cases vs with
    | nil => simp [pair]
    | cons v vs => simp [pair, ih vs]

theorem delivered_update (k k' : K) (s : MQ K V C) :
    delivered k (s.update k') = delivered k s ++ if k' = k then (s.q k).recips.zip (s.q k).msgs else [] := by
  unfold delivered MQ.update
  simp only [List.filterMap_append, pair_spec, List.filterMap_map]
  congr 1
  by_cases h : k' = k
  · subst h
    simp
  · rw [if_neg h, List.filterMap_eq_nil_iff]
    intro p _
    simp [h]

theorem q_update (k k' : K) (s : MQ K V C) :
    (s.update k').q k = if k' = k then { recips := (s.q k).recips.drop (s.q k).msgs.length, msgs := (s.q k).msgs.drop (s.q k).recips.length } else s.q k := by
  unfold MQ.update
  simp only [pair_spec]
  by_cases h : k' = k
  · subst h; simp
  · rw [if_neg h, if_neg (Ne.symm h)]

/-- What holds of the queue `k` when `cs` asked and `vs` came (and none was replaced). -/
structure PInv (k : K) (s : MQ K V C) (cs : List C) (vs : List V) : Prop where
  done : delivered k s = cs.zip vs
  recips : (s.q k).recips = cs.drop vs.length
  msgs : (s.q k).msgs = vs.drop cs.length

theorem zip_snoc_left (cs : List C) (c : C) (vs : List V) :
    (cs ++ [c]).zip vs = cs.zip vs ++ (if h : cs.length < vs.length then [(c, vs[cs.length])] else []) := by
  induction cs generalizing vs with
  | nil => cases vs <;> simp
  | cons a cs ih => cases vs with
    | nil => simp
    | cons v vs => simp [ih vs]

theorem zip_snoc_right (cs : List C) (vs : List V) (v : V) :
    cs.zip (vs ++ [v]) = cs.zip vs ++ (if h : vs.length < cs.length then [(cs[vs.length], v)] else []) := by
  induction cs generalizing vs with
  | nil => simp
  | cons a cs ih => cases vs with
    | nil => simp
    | cons v' vs => simp [ih vs]

theorem PInv.recipient {k : K} {s : MQ K V C} {cs : List C} {vs : List V} (h : PInv k s cs vs) (c : C) :
    PInv k (s.step (.recipient k c)) (cs ++ [c]) vs := by
  obtain ⟨h1, h2, h3⟩ := h
  refine ⟨?_, ?_, ?_⟩
  · rw [MQ.step, delivered_update, if_pos rfl]
    simp only [if_true]
    change delivered k s ++ _ = _
    rw [h1, h2, h3, zip_snoc_left cs]
    congr 1
    by_cases hl : cs.length < vs.length
    · rw [dif_pos hl, List.drop_of_length_le (by omega), List.nil_append]
      rw [List.drop_eq_getElem_cons hl, List.zip_cons_cons, List.zip_nil_left]
    · rw [dif_neg hl, List.drop_of_length_le (l := vs) (by omega)]; simp
  · rw [MQ.step, q_update, if_pos rfl]
    simp only [if_true]
    rw [h2, h3]
    by_cases hl : cs.length < vs.length
    · rw [List.drop_of_length_le (by simp; omega), List.drop_of_length_le (by simp; omega)]
    · rw [List.drop_of_length_le (l := vs) (by omega)]
      rw [List.length_nil, List.drop_zero, List.drop_append]
      have : vs.length - cs.length = 0 := by omega
      rw [this]; rfl
  · rw [MQ.step, q_update, if_pos rfl]
    simp only [if_true]
    rw [h2, h3, List.drop_drop]
    by_cases hl : cs.length < vs.length
    · rw [List.drop_of_length_le (l := cs) (by omega)]; simp
    · rw [List.drop_of_length_le (l := vs) (by omega), List.drop_of_length_le (l := vs) (by simp; omega)]

theorem PInv.message {k : K} {s : MQ K V C} {cs : List C} {vs : List V} (h : PInv k s cs vs) (ha : s.allow = true) (v : V) :
    PInv k (s.step (.message k v)) cs (vs ++ [v]) := by
  obtain ⟨h1, h2, h3⟩ := h
  refine ⟨?_, ?_, ?_⟩
  · simp only [MQ.step, ha, if_true]
    rw [delivered_update, if_pos rfl]
    simp only [if_true]
    change delivered k s ++ _ = _
    rw [h1, h2, h3, zip_snoc_right cs vs]
    congr 1
    by_cases hl : vs.length < cs.length
    · rw [dif_pos hl, List.drop_of_length_le (l := vs) (by omega), List.nil_append]
      rw [List.drop_eq_getElem_cons hl, List.zip_cons_cons, List.zip_nil_right]
    · rw [dif_neg hl, List.drop_of_length_le (l := cs) (by omega)]; simp
  · simp only [MQ.step, ha, if_true]
    rw [q_update, if_pos rfl]
    simp only [if_true]
    rw [h2, h3, List.drop_drop]
    by_cases hl : vs.length < cs.length
    · rw [List.drop_of_length_le (l := vs) (by omega)]; simp
    · rw [List.drop_of_length_le (l := cs) (by omega), List.drop_of_length_le (l := cs) (by simp; omega)]
  · simp only [MQ.step, ha, if_true]
    rw [q_update, if_pos rfl]
    simp only [if_true]
    rw [h2, h3]
    by_cases hl : vs.length < cs.length
    · rw [List.drop_of_length_le (l := vs) (by omega), List.drop_of_length_le (by simp; omega), List.drop_of_length_le (by simp; omega)]
    · rw [List.drop_of_length_le (l := cs) (by omega), List.length_nil, List.drop_zero, List.drop_append]
      have : cs.length - vs.length = 0 := by omega
      rw [this]; rfl

theorem PInv.other {k : K} {s : MQ K V C} {cs : List C} {vs : List V} (h : PInv k s cs vs) (e : Ev K V C)
    (he : match e with | .recipient k' _ => k' ≠ k | .message k' _ => k' ≠ k | _ => True) : PInv k (s.step e) cs vs := by
  obtain ⟨h1, h2, h3⟩ := h
  cases e with
  | recipient k' c =>
    simp only at he
    refine ⟨?_, ?_, ?_⟩
    · rw [MQ.step, delivered_update, if_neg he, List.append_nil]; exact h1
    · rw [MQ.step, q_update, if_neg he]; simp only [if_neg (Ne.symm he)]; exact h2
    · rw [MQ.step, q_update, if_neg he]; simp only [if_neg (Ne.symm he)]; exact h3
  | message k' v =>
    simp only at he
    refine ⟨?_, ?_, ?_⟩
    · rw [MQ.step, delivered_update, if_neg he, List.append_nil]; exact h1
    · rw [MQ.step, q_update, if_neg he]; simp only [if_neg (Ne.symm he)]; exact h2
    · rw [MQ.step, q_update, if_neg he]; simp only [if_neg (Ne.symm he)]; exact h3
  | allow b => exact ⟨h1, h2, h3⟩
  | abort c => exact ⟨h1, h2, h3⟩

theorem run_pinv (k : K) : ∀ (es : List (Ev K V C)) (s : MQ K V C) (cs : List C) (vs : List V), keepsAll es → s.allow = true → PInv k s cs vs →
    PInv k (s.run es) (cs ++ asked k es) (vs ++ came k es) ∧ (s.run es).allow = true := by
  intro es
  induction es with
  | nil => intro s cs vs _ ha h; simpa [MQ.run, asked, came] using ⟨h, ha⟩
  | cons e es ih =>
    intro s cs vs hk ha h
    have hk' : keepsAll es := fun e he => hk e (List.mem_cons_of_mem _ he)
    rw [MQ.run]
    cases e with
    | recipient k' c =>
      have ha' : (s.step (.recipient k' c)).allow = true := ha
      by_cases hkk : k' = k
      · subst hkk
        have := ih _ _ _ hk' ha' (h.recipient c)
        simpa [asked, came] using this
      · have := ih _ _ _ hk' ha' (h.other (.recipient k' c) hkk)
        simpa [asked, came, hkk] using this
    | message k' v =>
      have ha' : (s.step (.message k' v)).allow = true := ha
      by_cases hkk : k' = k
      · subst hkk
        have := ih _ _ _ hk' ha' (h.message ha v)
        simpa [asked, came] using this
      · have := ih _ _ _ hk' ha' (h.other (.message k' v) hkk)
        simpa [asked, came, hkk] using this
    | allow b =>
      have hb : b = true := by
        cases b with
        | true => rfl
        | false => exact absurd rfl (hk _ (by simp))
      have := ih _ _ _ hk' (by rw [MQ.step]; exact hb) (h.other (.allow b) trivial)
      simpa [asked, came] using this
    | abort c =>
      have := ih _ _ _ hk' ha (h.other (.abort c) trivial)
      simpa [asked, came, MQ.step] using this

/-- **C70 (partial), in order.**  For every history of messages received and of commands that wait for them, while duplicates are queued (as the adapter has it): what has
been delivered under a name is exactly the n-th message of that name to the n-th command that asked for it, for every n for which there are both;
nothing lost, nothing twice, nothing under another name; the others wait, in order, and never both messages and commands. -/
theorem c70_in_order_partial (es : List (Ev K V C)) (h : keepsAll es) (k : K) :
    let s := MQ.run (MQ.init true) es
    delivered k s = (asked k es).zip (came k es) ∧
    (s.q k).recips = (asked k es).drop (came k es).length ∧ (s.q k).msgs = (came k es).drop (asked k es).length ∧
    ((s.q k).recips = [] ∨ (s.q k).msgs = []) := by
  have := (run_pinv k es (MQ.init true) [] [] h rfl ⟨rfl, rfl, rfl⟩).1
  simp only [List.nil_append] at this
  refine ⟨this.done, this.recips, this.msgs, ?_⟩
  rw [this.recips, this.msgs]
  by_cases hl : (asked k es).length ≤ (came k es).length
  · exact .inl (List.drop_of_length_le hl)
  · exact .inr (List.drop_of_length_le (by omega))

/-- When duplicates are not queued, from the start: at most one message waits under a name, and it is the latest that came; a command that asks gets
that one. -/
theorem c70_latest (es : List (Ev K V C)) (h : ∀ e ∈ es, e ≠ .allow true) (k : K) :
    let s := MQ.run (MQ.init false) es
    (s.q k).msgs = [] ∨ (s.q k).recips = [] ∧ ∃ v, (s.q k).msgs = [v] ∧ (came k es).getLast? = some v := by
  suffices H : ∀ (es : List (Ev K V C)) (s : MQ K V C) (vs : List V), (∀ e ∈ es, e ≠ .allow true) → s.allow = false →
      ((s.q k).msgs = [] ∨ (s.q k).recips = [] ∧ ∃ v, (s.q k).msgs = [v] ∧ vs.getLast? = some v) →
      (((s.run es).q k).msgs = [] ∨ ((s.run es).q k).recips = [] ∧ ∃ v, ((s.run es).q k).msgs = [v] ∧ (vs ++ came k es).getLast? = some v) by
    have := H es (MQ.init false) [] h rfl (.inl rfl)
    simpa using this
  intro es
  induction es with
  | nil => intro s vs _ _ h; simpa [MQ.run, came] using h
  | cons e es ih =>
    intro s vs hk ha hi
    have hk' : ∀ e ∈ es, e ≠ .allow true := fun e he => hk e (List.mem_cons_of_mem _ he)
    rw [MQ.run]
    cases e with
    | recipient k' c =>
      by_cases hkk : k' = k
      · subst hkk
        have := ih (s.step (.recipient k' c)) vs hk' ha (.inl ?_)
        · simpa [came] using this
        · rw [MQ.step, q_update, if_pos rfl]
          simp only [if_true]
          rcases hi with hi | ⟨-, v, hi, -⟩
          · rw [hi]; simp
          · rw [hi]; simp
      · have := ih (s.step (.recipient k' c)) vs hk' ha ?_
        · simpa [came] using this
        · rw [MQ.step, q_update, if_neg hkk]; simp only [if_neg (Ne.symm hkk)]; exact hi
    | message k' v =>
      by_cases hkk : k' = k
      · subst hkk
        have := ih (s.step (.message k' v)) (vs ++ [v]) hk' ha ?_
        · simpa [came] using this
        · simp only [MQ.step, ha]
          rw [q_update, if_pos rfl]
          simp only [if_true, Bool.false_eq_true, if_false, List.nil_append, List.length_singleton]
          cases hr : (s.q k').recips with
          | nil => exact .inr ⟨by simp, v, by simp, by simp⟩
          | cons c cs => exact .inl (by simp)
      · have := ih (s.step (.message k' v)) vs hk' ha ?_
        · simpa [came, hkk] using this
        · rw [MQ.step, q_update, if_neg hkk]; simp only [if_neg (Ne.symm hkk)]; exact hi
    | allow b =>
      have hb : b = false := by
        cases b with
        | false => rfl
        | true => exact absurd rfl (hk _ (by simp))
      have := ih (s.step (.allow b)) vs hk' (by rw [MQ.step]; exact hb) hi
      simpa [came] using this
    | abort c =>
      have := ih (s.step (.abort c)) vs hk' ha hi
      simpa [came] using this

/-- A history that meets the hypotheses: two messages, then two commands, and a third waiting. -/
theorem c70_example : delivered 0 (MQ.run (MQ.init true) [.message 0 "a", .message 0 "b", .message 1 "c", .recipient 0 7, .recipient 0 8, .recipient 0 9] : MQ Nat String Nat) =
    [(7, "a"), (8, "b")] := by decide

/-- **C70 is false for aborted commands**: a command that was aborted still takes the next message, and the command that waits for it gets nothing
(`UdpAdapter.cc:532-575` leaves it in the queue). -/
theorem c70_aborted : delivered 0 (MQ.run (MQ.init true) [.recipient 0 7, .abort 7, .recipient 0 8, .message 0 "a"] : MQ Nat String Nat) = [(7, "a")] := by decide

/-- Nor does turning the queueing of duplicates off remove the older ones, as `MessageQueueMap.hh:74-83` promises: the oldest is delivered. -/
theorem c70_not_removed : delivered 0 (MQ.run (MQ.init true) [.message 0 "a", .message 0 "b", .allow false, .recipient 0 7] : MQ Nat String Nat) = [(7, "a")] := by decide

/-! ## C71 -/

theorem dec_digits (n : Nat) : ∀ c ∈ dec n, c ∈ "0123456789".toList := by
  unfold dec
  split
  · intro c hc; simp only [List.mem_singleton] at hc; subst hc; decide
  · intro c hc
    rw [List.mem_map] at hc
    obtain ⟨d, hd, rfl⟩ := hc
    have hd : d < 10 := Nat.digits_lt_base (by omega) (List.mem_reverse.mp hd)
    have : ∀ d < 10, Nat.digitChar d ∈ "0123456789".toList := by decide
    exact this d hd

theorem digitChar_inj : ∀ a < 10, ∀ b < 10, Nat.digitChar a = Nat.digitChar b → a = b := by decide

theorem dec_inj {n m : Nat} (h : dec n = dec m) : n = m := by
  have zero : ∀ m, m ≠ 0 → ['0'] ≠ (Nat.digits 10 m).reverse.map Nat.digitChar := by
    intro m hm hz
    have hl : (Nat.digits 10 m).length = 1 := by
      have := congrArg List.length hz; simpa using this.symm
    obtain ⟨d, hd⟩ := List.length_eq_one_iff.mp hl
    have hd10 : d < 10 := Nat.digits_lt_base (m := m) (by omega) (by rw [hd]; simp)
    rw [hd] at hz
    simp only [List.reverse_singleton, List.map_singleton, List.cons.injEq, and_true] at hz
    have h0 : d = 0 := (digitChar_inj 0 (by omega) d hd10 hz).symm
    have := Nat.ofDigits_digits 10 m
    rw [hd, h0] at this
    simp at this; omega
  unfold dec at h
  by_cases hn : n = 0
  · by_cases hm : m = 0
    · omega
    · rw [if_pos hn, if_neg hm] at h; exact absurd h (zero m hm)
  · by_cases hm : m = 0
    · rw [if_neg hn, if_pos hm] at h; exact absurd h.symm (zero n hn)
    · rw [if_neg hn, if_neg hm] at h
      have inj : ∀ (a b : List Nat), (∀ x ∈ a, x < 10) → (∀ x ∈ b, x < 10) → a.map Nat.digitChar = b.map Nat.digitChar → a = b := by
        intro a
        induction a with
        | nil => intro b _ _ h; cases b with
          | nil => rfl
          | cons => simp at h
        | cons x a ih => intro b ha hb h; cases b with
          | nil => simp at h
          | cons y b =>
            simp only [List.map_cons, List.cons.injEq] at h
            rw [digitChar_inj x (ha x (by simp)) y (hb y (by simp)) h.1,
              ih b (fun x hx => ha x (List.mem_cons_of_mem _ hx)) (fun x hx => hb x (List.mem_cons_of_mem _ hx)) h.2]
      have := inj _ _ (fun x hx => Nat.digits_lt_base (by omega) (List.mem_reverse.mp hx))
        (fun x hx => Nat.digits_lt_base (by omega) (List.mem_reverse.mp hx)) h
      exact Nat.digits_inj_iff.mp (List.reverse_inj.mp this)

/-- Two ends that begin after the last separator are equal. -/
theorem split_sep {c : Char} (a b x y : List Char) (hx : c ∉ x) (hy : c ∉ y) (h : a ++ c :: x = b ++ c :: y) : a = b ∧ x = y := by
  induction a generalizing b with
  | nil =>
    cases b with
    | nil => simp only [List.nil_append, List.cons.injEq, true_and] at h; exact ⟨rfl, h⟩
    | cons d b =>
      simp only [List.nil_append, List.cons_append, List.cons.injEq] at h
      exact absurd (h.2 ▸ by simp : c ∈ x) hx
  | cons d a ih =>
    cases b with
    | nil =>
      simp only [List.nil_append, List.cons_append, List.cons.injEq] at h
      exact absurd (h.2 ▸ by simp : c ∈ y) hy
    | cons e b =>
      simp only [List.cons_append, List.cons.injEq] at h
      obtain ⟨h1, h2⟩ := ih b h.2
      exact ⟨by rw [h.1, h1], h2⟩

theorem key_ne (a b : List Char) : '_' :: '_' :: 'P' :: a ≠ '_' :: '_' :: 'C' :: b := by
  intro h
  injection h with _ h; injection h with _ h; injection h with h _
  exact absurd h (by decide)

theorem paramKey_eq (l : List Char) (i : Nat) : paramKey l i = '_' :: '_' :: 'P' :: ("ARAMETER__".toList ++ l ++ '_' :: dec i) := rfl

theorem commandKey_eq (name : List Char) : commandKey name = '_' :: '_' :: 'C' :: ("OMMAND__".toList ++ name ++ '_' :: dec 0) := rfl

/-- **C71, names.**  The queue of a parameter belongs to one message received and one parameter index, whatever the names of the messages; the label a plan gets for
a message belongs to that message; and no parameter queue is the queue of a message name. -/
theorem c71_names (name name' : List Char) (n n' i i' : Nat) :
    (label name n = label name' n' → name = name' ∧ n = n') ∧
    (∀ l l', paramKey l i = paramKey l' i' → l = l' ∧ i = i') ∧
    (∀ l, paramKey l i ≠ commandKey name) := by
  have nosep : ∀ c ∉ "0123456789".toList, ∀ n, c ∉ dec n := fun c hc n h => hc (dec_digits n c h)
  refine ⟨?_, ?_, ?_⟩
  · intro h
    have e : ∀ (x : List Char) k, label x k = (x ++ ":msg_parameter".toList) ++ ':' :: dec k := by intro x k; simp [label]
    rw [e, e] at h
    obtain ⟨h1, h2⟩ := split_sep _ _ _ _ (nosep ':' (by decide) n) (nosep ':' (by decide) n') h
    exact ⟨List.append_cancel_right h1, dec_inj h2⟩
  · intro l l' h
    obtain ⟨h1, h2⟩ := split_sep _ _ _ _ (nosep '_' (by decide) i) (nosep '_' (by decide) i') h
    exact ⟨List.append_cancel_left h1, dec_inj h2⟩
  · intro l h
    rw [paramKey_eq, commandKey_eq] at h; exact key_ne _ _ h

/-- The events at the queues; the counter counts datagrams (`UdpAdapter.cc:837-839`). -/
def events {F : Flt} {C : Type} : Nat → List (Act F C) → List (Ev (List Char) (Item F) C)
  | _, [] => []
  | n, .datagram name vs :: as => datagramEvents name n vs ++ events (n + 1) as
  | n, .receiveCommand name c :: as => .recipient (commandKey name) c :: events n as
  | n, .getParameter l i c :: as => .recipient (paramKey l i) c :: events n as

theorem asked_append (k : K) (a b : List (Ev K V C)) : asked k (a ++ b) = asked k a ++ asked k b := by
  induction a with
  | nil => rfl
  | cons e a ih => cases e <;> simp only [List.cons_append, asked, ih]; split <;> simp

theorem came_append (k : K) (a b : List (Ev K V C)) : came k (a ++ b) = came k a ++ came k b := by
  induction a with
  | nil => rfl
  | cons e a ih => cases e <;> simp only [List.cons_append, came, ih]; split <;> simp

theorem came_params {C : Type} (l l' : List Char) (i : Nat) : ∀ (vs : List (Val F)) (j : Nat),
    came (C := C) (paramKey l i) (paramEvents l' j vs) = if l' = l ∧ j ≤ i then ((vs[i - j]?).map Item.val).toList else [] := by
  intro vs
  induction vs with
  | nil => intro j; simp [paramEvents, came]
  | cons v vs ih =>
    intro j
    rw [paramEvents, came, ih]
    by_cases hl : l' = l
    · subst hl
      by_cases hj : j = i
      · subst hj; simp
      · have hk : paramKey l' j ≠ paramKey l' i := fun h => hj ((c71_names [] [] 0 0 j i).2.1 l' l' h).2
        rw [if_neg hk]
        by_cases hji : j ≤ i
        · rw [if_pos ⟨rfl, by omega⟩, if_pos ⟨rfl, hji⟩]
          have : i - j = i - (j + 1) + 1 := by omega
          rw [this, List.getElem?_cons_succ]
        · rw [if_neg (by omega), if_neg (by omega)]
    · have hk : paramKey l' j ≠ paramKey l i := fun h => hl ((c71_names [] [] 0 0 j i).2.1 l' l h).1
      rw [if_neg hk, if_neg (fun h => hl h.1), if_neg (fun h => hl h.1)]

theorem asked_params {C : Type} (k : List Char) (l' : List Char) : ∀ (vs : List (Val F)) (j : Nat),
    asked (C := C) k (paramEvents l' j vs) = [] := by
  intro vs
  induction vs with
  | nil => intro j; rfl
  | cons v vs ih => intro j; simp only [paramEvents, asked, ih]

theorem came_events (name : List Char) (m i : Nat) : ∀ (as : List (Act F C)) (n : Nat),
    came (paramKey (label name m) i) (events n as) =
      if n ≤ m then (match (datagrams as)[m - n]? with
        | some (name', vs) => if name' = name then ((vs[i]?).map Item.val).toList else []
        | none => []) else [] := by
  intro as
  induction as with
  | nil => intro n; simp [events, came, datagrams]
  | cons a as ih =>
    intro n
    cases a with
    | datagram name' vs =>
      rw [events, came_append, ih]
      have h1 : came (C := C) (paramKey (label name m) i) (datagramEvents name' n vs) =
          if name' = name ∧ n = m then ((vs[i]?).map Item.val).toList else [] := by
        rw [datagramEvents, came, if_neg (fun h => (c71_names name' [] 0 0 i 0).2.2 _ h.symm), came_params]
        by_cases hl : name' = name ∧ n = m
        · obtain ⟨rfl, rfl⟩ := hl; simp
        · rw [if_neg hl, if_neg (fun h => hl ((c71_names name' name n m 0 0).1 h.1))]
      rw [h1]
      rw [datagrams]
      by_cases hnm : n = m
      · subst hnm
        rw [if_neg (by omega : ¬ n + 1 ≤ n)]
        simp
      · rw [if_neg (fun h => hnm h.2), List.nil_append]
        by_cases hle : n ≤ m
        · rw [if_pos (by omega), if_pos hle]
          have : m - n = m - (n + 1) + 1 := by omega
          rw [this, List.getElem?_cons_succ]
        · rw [if_neg (by omega), if_neg hle]
    | receiveCommand name' c => simp only [events, came, ih, datagrams]
    | getParameter l i' c => simp only [events, came, ih, datagrams]

theorem asked_events (l : List Char) (i : Nat) : ∀ (as : List (Act F C)) (n : Nat), asked (paramKey l i) (events n as) = askers l i as := by
  intro as
  induction as with
  | nil => intro n; rfl
  | cons a as ih =>
    intro n
    cases a with
    | datagram name' vs =>
      simp only [events, asked_append, ih, datagramEvents, asked, asked_params, List.nil_append, askers]
    | receiveCommand name' c =>
      rw [events, asked, if_neg (fun h => (c71_names name' [] 0 0 i 0).2.2 _ h.symm), ih]; simp only [askers]
    | getParameter l' i' c =>
      rw [events, asked, ih, askers]
      by_cases h : l' = l ∧ i' = i
      · obtain ⟨rfl, rfl⟩ := h; simp
      · rw [if_neg h, if_neg (fun hk => h ((c71_names [] [] 0 0 i' i).2.1 l' l hk))]

theorem keepsAll_events : ∀ (as : List (Act F C)) (n : Nat), keepsAll (events n as) := by
  intro as
  induction as with
  | nil => intro n e he; cases he
  | cons a as ih =>
    intro n e he
    cases a with
    | datagram name' vs =>
      rw [events, List.mem_append] at he
      rcases he with he | he
      · rw [datagramEvents] at he
        rcases List.mem_cons.mp he with rfl | he
        · simp
        · have : ∀ (vs : List (Val F)) (j : Nat), ∀ e ∈ (paramEvents (label name' n) j vs : List (Ev (List Char) (Item F) C)), e ≠ .allow false := by
            intro vs
            induction vs with
            | nil => intro j e he; cases he
            | cons v vs ih =>
              intro j e he
              rw [paramEvents] at he
              rcases List.mem_cons.mp he with rfl | he
              · simp
              · exact ih _ e he
          exact this vs 0 e he
      · exact ih _ e he
    | receiveCommand name' c =>
      rw [events] at he
      rcases List.mem_cons.mp he with rfl | he
      · simp
      · exact ih _ e he
    | getParameter l i c =>
      rw [events] at he
      rcases List.mem_cons.mp he with rfl | he
      · simp
      · exact ih _ e he

/-- **C71.**  For every history of datagrams and commands: a command that asks for parameter `i` of the `m`-th datagram, under the label the plan got for it, gets the
`i`-th value of that datagram and no other — the first that asks does, as soon as both are there; any other waits for ever. -/
theorem c71_parameter (as : List (Act F C)) (m i : Nat) (name : List Char) (vs : List (Val F)) (hm : (datagrams as)[m]? = some (name, vs)) :
    let s := MQ.run (MQ.init true) (events 0 as)
    delivered (paramKey (label name m) i) s = (askers (label name m) i as).zip ((vs[i]?).map Item.val).toList := by
  have := (c70_in_order_partial (events 0 as) (keepsAll_events as 0) (paramKey (label name m) i)).1
  simp only
  rw [this, asked_events, came_events]
  simp [hm]

/-- And the command that asks for a message gets a label that no other message received has; parameters asked under a label that was never given out are
never delivered. -/
theorem c71_unknown_label (as : List (Act F C)) (m i : Nat) (name : List Char)
    (hm : ∀ vs, (datagrams as)[m]? ≠ some (name, vs)) :
    delivered (paramKey (label name m) i) (MQ.run (MQ.init true) (events 0 as)) = [] := by
  have := (c70_in_order_partial (events 0 as) (keepsAll_events as 0) (paramKey (label name m) i)).1
  rw [this, asked_events, came_events]
  simp only [Nat.zero_le, if_true, Nat.sub_zero]
  cases hd : (datagrams as)[m]? with
  | none => simp
  | some p =>
    obtain ⟨name', vs⟩ := p
    simp only
    by_cases hn : name' = name
    · subst hn; exact absurd hd (hm vs)
    · simp [hn]

/-- Two datagrams of the same message; the parameters are asked for out of order. -/
theorem c71_example : delivered (paramKey (label "m".toList 1) 0) (MQ.run (MQ.init true) (events 0
      [.getParameter (label "m".toList 1) 0 7, .datagram "m".toList [.scalar (.bool true)], .datagram "m".toList [.scalar (.bool false)],
        .getParameter (label "m".toList 0) 0 8] : List (Ev (List Char) (Item F) Nat))) = [(7, .val (.scalar (.bool false)))] := by
  have h := c71_parameter (F := F) (C := Nat)
    [.getParameter (label "m".toList 1) 0 7, .datagram "m".toList [.scalar (.bool true)], .datagram "m".toList [.scalar (.bool false)],
        .getParameter (label "m".toList 0) 0 8] 1 0 "m".toList [.scalar (.bool false)] rfl
  have e : askers (F := F) (label "m".toList 1) 0
    [.getParameter (label "m".toList 1) 0 7, .datagram "m".toList [.scalar (.bool true)], .datagram "m".toList [.scalar (.bool false)],
        .getParameter (label "m".toList 0) 0 8] = [7] := by
    have hne : label "m".toList 0 ≠ label "m".toList 1 := fun h => by
      have := ((c71_names "m".toList "m".toList 0 1 0 0).1 h).2; omega
    simp only [askers, and_self, if_true, hne, false_and, if_false]
  rw [e] at h
  simpa using h

end Verif.Udp
