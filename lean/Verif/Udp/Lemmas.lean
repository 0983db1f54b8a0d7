import Verif.Udp.Spec
namespace Verif.Udp
variable {F : Flt}

/-! ### Bytes -/

/-- Zeros. -/
abbrev zeros (n : Nat) : List Nat := List.replicate n 0

theorem put_zeros (pre : List Nat) (L : Nat) (bs : List Nat) (h : bs.length ≤ L) :
    put (pre ++ zeros L) pre.length bs = .ok (pre ++ bs ++ zeros (L - bs.length)) := by
  unfold put
  rw [if_pos (by simp; omega)]
  congr 1
  rw [List.take_left, List.drop_append, List.drop_of_length_le (by omega)]
  simp

theorem fetch_mid (pre bs post : List Nat) : fetch (pre ++ bs ++ post) pre.length bs.length = .ok bs := by
  unfold fetch
  rw [if_pos (by simp)]
  congr 1
  rw [List.append_assoc, List.drop_left, List.take_left]

theorem number_bytes4 (n : Nat) (h : n < 2 ^ 32) : number (bytes4 n) = n := by
  simp only [number, bytes4, List.foldl]; omega

theorem number_bytes2 (n : Nat) (h : n < 2 ^ 16) : number (bytes2 n) = n := by
  simp only [number, bytes2, List.foldl]; omega

theorem dec_enc32 (i : Int) (h1 : -2 ^ 31 ≤ i) (h2 : i < 2 ^ 31) : dec32 (enc32 i) = i := by
  unfold dec32 enc32
  rw [number_bytes4 _ (by omega)]
  unfold signed
  split <;> omega

theorem dec_enc16 (i : Int) (h1 : -2 ^ 15 ≤ i) (h2 : i < 2 ^ 15) : dec16 (enc16 i) = i := by
  unfold dec16 enc16
  rw [number_bytes2 _ (by omega)]
  unfold signed
  split <;> omega

theorem cString_append (s : List Nat) (n : Nat) : cString (s ++ zeros n) = s.takeWhile (fun c => decide (c ≠ 0)) := by
  induction s with
  | nil => cases n <;> simp [cString, List.replicate_succ]
  | cons c s ih =>
    rw [List.cons_append, cString]
    by_cases h : c = 0
    · simp [h]
    · simp [h, ih]

/-! ### One value -/

theorem writeElem_fits {b : Base} {len : Nat} {v : Sc F} (h : v.fits b len) (hw : v.wf) :
    ∃ bs : List Nat, bs.length = len ∧
      (∀ pre L, len ≤ L → writeElem b len v (pre ++ zeros L) pre.length = .ok (pre ++ bs ++ zeros (L - len))) ∧
      ∀ pre post, readElem F b len (pre ++ bs ++ post) pre.length = .ok v.arrives := by
  cases b <;> cases v <;> simp only [Sc.fits] at h
  case bool.bool x =>
    rcases h with rfl | rfl | rfl
    · refine ⟨[x.toNat], rfl, fun pre L hL => by simp only [writeElem]; exact put_zeros pre L [x.toNat] hL, fun pre post => ?_⟩
      have := fetch_mid pre [x.toNat] post
      simp only [List.length_singleton] at this
      simp only [readElem, this, Out.bind, Sc.arrives, if_true]
      cases x <;> rfl
    · refine ⟨enc16 x.toNat, rfl, fun pre L hL => (put_zeros pre L (enc16 x.toNat) hL : _), fun pre post => ?_⟩
      have := fetch_mid pre (enc16 x.toNat) post
      rw [show (enc16 (x.toNat : Int)).length = 2 from rfl] at this
      simp only [readElem, this, Out.bind, Sc.arrives, if_true]
      rw [dec_enc16 _ (by omega) (by cases x <;> simp)]
      cases x <;> rfl
    · refine ⟨enc32 x.toNat, rfl, fun pre L hL => (put_zeros pre L (enc32 x.toNat) hL : _), fun pre post => ?_⟩
      have := fetch_mid pre (enc32 x.toNat) post
      rw [show (enc32 (x.toNat : Int)).length = 4 from rfl] at this
      simp only [readElem, this, Out.bind, Sc.arrives, if_true]
      rw [dec_enc32 _ (by omega) (by cases x <;> simp)]
      cases x <;> rfl
  case int.int n =>
    rcases h with ⟨rfl, h1, h2⟩ | rfl
    · refine ⟨enc16 n, rfl, fun pre L hL => ?_, fun pre post => ?_⟩
      · simp only [writeElem]
        rw [if_neg (by omega), if_pos trivial, if_neg (by omega)]
        exact put_zeros pre L (enc16 n) hL
      · have := fetch_mid pre (enc16 n) post
        rw [show (enc16 n).length = 2 from rfl] at this
        simp only [readElem]
        rw [if_neg (by omega), if_pos trivial, this]
        simp only [Out.bind, Sc.arrives]
        rw [dec_enc16 n (by omega) (by omega)]
    · refine ⟨enc32 n, rfl, fun pre L hL => ?_, fun pre post => ?_⟩
      · simp only [writeElem]
        rw [if_neg (by omega), if_neg (by omega)]
        exact put_zeros pre L (enc32 n) hL
      · have := fetch_mid pre (enc32 n) post
        rw [show (enc32 n).length = 4 from rfl] at this
        simp only [readElem]
        rw [if_neg (by omega), if_neg (by omega), this]
        simp only [Out.bind, Sc.arrives]
        rw [dec_enc32 n hw.1 hw.2]
  case float.real d =>
    obtain ⟨rfl, hr⟩ := h
    refine ⟨bytes4 (F.toBits d), rfl, fun pre L hL => ?_, fun pre post => ?_⟩
    · simp only [writeElem]
      rw [if_neg (by omega), if_pos hr]
      exact put_zeros pre L (bytes4 (F.toBits d)) hL
    · have := fetch_mid pre (bytes4 (F.toBits d)) post
      rw [show (bytes4 (F.toBits d)).length = 4 from rfl] at this
      simp only [readElem]
      rw [if_neg (by omega), this]
      simp only [Out.bind, Sc.arrives]
      rw [number_bytes4 _ (F.toBits_lt d)]
  case string.str s =>
    refine ⟨s ++ zeros (len - s.length), by simp; omega, fun pre L hL => ?_, fun pre post => ?_⟩
    · simp only [writeElem]
      rw [if_neg (by omega), put_zeros pre L s (by omega)]
      congr 1
      rw [← List.append_assoc, List.append_assoc (pre ++ s), List.replicate_append_replicate]
      congr 2; omega
    · have := fetch_mid pre (s ++ zeros (len - s.length)) post
      rw [show (s ++ zeros (len - s.length)).length = len by simp; omega] at this
      simp only [readElem]
      rw [this]
      simp only [Out.bind, Sc.arrives, cString_append]

theorem writeElem_not_fits {b : Base} {len : Nat} {v : Sc F} (h : ¬ v.fits b len) (buf : List Nat) (i : Nat) :
    writeElem b len v buf i = .fail := by
  cases b <;> cases v <;> simp only [Sc.fits] at h <;> simp only [writeElem]
  case bool.bool x =>
    rw [if_neg (by omega), if_neg (by omega), if_neg (by omega)]
  case int.int n =>
    split
    · rfl
    · split
      · split
        · rfl
        · omega
      · omega
  case float.real d =>
    by_cases h4 : len = 4
    · rw [if_neg (by omega), if_neg (fun hr => h ⟨h4, hr⟩)]
    · rw [if_pos h4]
  case string.str s => rw [if_pos (by omega)]

/-! ### Arrays -/

theorem writeElems_fits {b : Base} {len : Nat} : ∀ (els : List (Option (Sc F))), elemsFit b len els → elemsWf els →
    ∃ bs : List Nat, bs.length = len * els.length ∧
      (∀ pre L, len * els.length ≤ L → writeElems b len els (pre ++ zeros L) pre.length =
        .ok (pre ++ bs ++ zeros (L - len * els.length), pre.length + len * els.length)) ∧
      ∀ pre post, readElems F b len els.length (pre ++ bs ++ post) pre.length = .ok (els.map fun o => o.map Sc.arrives) := by
  intro els
  induction els with
  | nil => intro _ _; exact ⟨[], by simp, fun pre L _ => by simp [writeElems], fun pre post => by simp [readElems]⟩
  | cons o els ih =>
    intro hf hw
    obtain ⟨v, rfl, hv⟩ := hf o (by simp)
    obtain ⟨bs1, l1, w1, r1⟩ := writeElem_fits hv (hw v (by simp))
    obtain ⟨bs2, l2, w2, r2⟩ := ih (fun o ho => hf o (List.mem_cons_of_mem _ ho)) (fun v hv => hw v (List.mem_cons_of_mem _ hv))
    have hlen : len * (some v :: els).length = len + len * els.length := by rw [List.length_cons, Nat.mul_add]; omega
    refine ⟨bs1 ++ bs2, by rw [hlen, List.length_append, l1, l2], fun pre L hL => ?_, fun pre post => ?_⟩
    · rw [hlen] at hL
      rw [writeElems, w1 pre L (by omega)]
      simp only [Out.bind]
      have := w2 (pre ++ bs1) (L - len) (by omega)
      rw [List.length_append, l1] at this
      rw [this, hlen]
      congr 1
      rw [Prod.mk.injEq]
      refine ⟨?_, by omega⟩
      rw [← List.append_assoc pre]
      congr 2; omega
    · rw [List.length_cons, readElems]
      have h1 := r1 pre (bs2 ++ post)
      have h2 := r2 (pre ++ bs1) post
      rw [List.length_append, l1] at h2
      have e1 : pre ++ (bs1 ++ bs2) ++ post = pre ++ bs1 ++ (bs2 ++ post) := by simp
      have e2 : pre ++ (bs1 ++ bs2) ++ post = pre ++ bs1 ++ bs2 ++ post := by simp
      rw [e1, h1]; simp only [Out.bind]
      rw [← e1, e2, h2]
      rfl

theorem writeElems_not_fit {b : Base} {len : Nat} : ∀ (els : List (Option (Sc F))), ¬ elemsFit b len els → elemsWf els →
    ∀ pre L, len * els.length ≤ L → writeElems b len els (pre ++ zeros L) pre.length = .fail := by
  intro els
  induction els with
  | nil => intro h; exact absurd (fun o ho => by cases ho) h
  | cons o els ih =>
    intro hn hw pre L hL
    rw [List.length_cons, Nat.mul_add] at hL
    cases o with
    | none => rw [writeElems]
    | some v =>
      by_cases hv : v.fits b len
      · obtain ⟨bs1, l1, w1, -⟩ := writeElem_fits hv (hw v (by simp))
        rw [writeElems, w1 pre L (by omega)]
        simp only [Out.bind]
        have := ih (fun h => hn fun o ho => ?_) (fun v hv => hw v (List.mem_cons_of_mem _ hv)) (pre ++ bs1) (L - len) (by omega)
        · rw [List.length_append, l1] at this; exact this
        · rcases List.mem_cons.mp ho with rfl | ho
          · exact ⟨v, rfl, hv⟩
          · exact h o ho
      · rw [writeElems, writeElem_not_fits hv]; rfl

/-! ### Parameters -/

theorem fits_base {b : Base} {len : Nat} {s : Sc F} (h : s.fits b len) : s.base = b := by
  cases b <;> cases s <;> simp only [Sc.fits] at h <;> rfl

theorem writeArg_fits {p : Param} (hp : p.valid = true) {v : Val F} (h : v.fits p) (hw : v.wf) :
    ∃ bs : List Nat, bs.length = p.len * p.elements ∧
      (∀ pre L, p.len * p.elements ≤ L → writeArg p v (pre ++ zeros L) pre.length =
        .ok (pre ++ bs ++ zeros (L - p.len * p.elements), pre.length + p.len * p.elements)) ∧
      ∀ pre post, readArg F p (pre ++ bs ++ post) pre.length = .ok v.arrives := by
  simp only [Param.valid, Bool.and_eq_true] at hp
  cases v with
  | unknown => exact absurd h (by simp [Val.fits])
  | scalar s =>
    obtain ⟨ha, hf⟩ := h
    have he : p.elements = 1 := by
      have := hp.2; rw [ha] at this; simpa using this
    obtain ⟨bs, l, w, r⟩ := writeElem_fits hf hw
    rw [he, Nat.mul_one]
    refine ⟨bs, l, fun pre L hL => ?_, fun pre post => ?_⟩
    · rw [writeArg, ha]
      simp only [fits_base hf, ne_eq, not_true_eq_false, if_false, w pre L hL, Out.bind]
      rfl
    · simp only [readArg, ha, r pre post, Out.bind, Val.arrives]; rfl
  | array b els =>
    obtain ⟨ha, rfl, hl, hf⟩ := h
    obtain ⟨bs, l, w, r⟩ := writeElems_fits els hf hw
    rw [hl] at l w r
    refine ⟨bs, l, fun pre L hL => ?_, fun pre post => ?_⟩
    · rw [writeArg, ha]
      simp only [if_true, ne_eq, not_true_eq_false, if_false, hl, w pre L hL]
    · simp only [readArg, ha, if_true, r pre post, Out.bind, Val.arrives]

theorem writeArg_not_fits {p : Param} {v : Val F} (h : ¬ v.fits p) (hw : v.wf) (pre : List Nat) (L : Nat) (hL : p.len * p.elements ≤ L) :
    writeArg p v (pre ++ zeros L) pre.length = .fail := by
  cases v with
  | unknown => rfl
  | scalar s =>
    rw [writeArg]
    cases ha : p.array with
    | true => rfl
    | false =>
      simp only [Bool.false_eq_true, if_false]
      split
      · rfl
      · rw [writeElem_not_fits (fun hf => h ⟨ha, hf⟩)]; rfl
  | array b els =>
    rw [writeArg]
    cases ha : p.array with
    | false => rfl
    | true =>
      simp only [if_true]
      split
      · rfl
      · split
        · rfl
        · rename_i hb hl
          have hb : b = p.base := Classical.byContradiction hb
          have hl : p.elements = els.length := Classical.byContradiction hl
          exact writeElems_not_fit els (fun hf => h ⟨ha, hb, hl.symm, hf⟩) hw pre L (by rw [← hl]; exact hL)

/-! ### Messages -/

theorem Fits.length {ps : List Param} {vs : List (Val F)} (h : Fits ps vs) : vs.length = ps.length := by
  induction ps generalizing vs with
  | nil => cases vs with
    | nil => rfl
    | cons => exact absurd h (by simp [Fits])
  | cons p ps ih => cases vs with
    | nil => exact absurd h (by simp [Fits])
    | cons v vs => simp [ih h.2]

theorem writeArgs_fits : ∀ (ps : List Param) (vs : List (Val F)), (∀ p ∈ ps, p.valid = true) → (∀ v ∈ vs, v.wf) → Fits ps vs →
    ∃ bs : List Nat, bs.length = msgLen ps ∧
      (∀ pre L, msgLen ps ≤ L → writeArgs ps vs (pre ++ zeros L) pre.length =
        .ok (pre ++ bs ++ zeros (L - msgLen ps), pre.length + msgLen ps)) ∧
      ∀ pre post, handle F ps (pre ++ bs ++ post) pre.length = .ok (vs.map Val.arrives, true) := by
  intro ps
  induction ps with
  | nil =>
    intro vs _ _ h
    cases vs with
    | cons => exact absurd h (by simp [Fits])
    | nil => exact ⟨[], rfl, fun pre L _ => by simp [writeArgs, msgLen], fun pre post => by simp [handle]⟩
  | cons p ps ih =>
    intro vs hp hw h
    cases vs with
    | nil => exact absurd h (by simp [Fits])
    | cons v vs =>
      obtain ⟨b1, l1, w1, r1⟩ := writeArg_fits (hp p (by simp)) h.1 (hw v (by simp))
      obtain ⟨b2, l2, w2, r2⟩ := ih vs (fun p h => hp p (List.mem_cons_of_mem _ h)) (fun v h => hw v (List.mem_cons_of_mem _ h)) h.2
      refine ⟨b1 ++ b2, by rw [List.length_append, l1, l2, msgLen], fun pre L hL => ?_, fun pre post => ?_⟩
      · rw [msgLen] at hL
        rw [writeArgs, w1 pre L (by omega)]
        simp only [Out.bind]
        have := w2 (pre ++ b1) (L - p.len * p.elements) (by omega)
        rw [List.length_append, l1] at this
        rw [this, msgLen]
        congr 1
        rw [Prod.mk.injEq]
        refine ⟨?_, by omega⟩
        rw [← List.append_assoc pre]
        congr 2; omega
      · rw [handle]
        have h1 := r1 pre (b2 ++ post)
        have h2 := r2 (pre ++ b1) post
        rw [List.length_append, l1] at h2
        have e1 : pre ++ (b1 ++ b2) ++ post = pre ++ b1 ++ (b2 ++ post) := by simp
        have e2 : pre ++ (b1 ++ b2) ++ post = pre ++ b1 ++ b2 ++ post := by simp
        rw [e1, h1]; simp only
        rw [← e1, e2, h2]
        rfl

theorem writeArgs_not_fit : ∀ (ps : List Param) (vs : List (Val F)), (∀ p ∈ ps, p.valid = true) → (∀ v ∈ vs, v.wf) → vs.length = ps.length →
    ¬ Fits ps vs → ∀ pre L, msgLen ps ≤ L → writeArgs ps vs (pre ++ zeros L) pre.length = .fail := by
  intro ps
  induction ps with
  | nil =>
    intro vs _ _ hl h
    cases vs with
    | nil => exact absurd trivial h
    | cons => simp at hl
  | cons p ps ih =>
    intro vs hp hw hl h pre L hL
    cases vs with
    | nil => simp at hl
    | cons v vs =>
      rw [msgLen] at hL
      by_cases hv : v.fits p
      · obtain ⟨b1, l1, w1, -⟩ := writeArg_fits (hp p (by simp)) hv (hw v (by simp))
        rw [writeArgs, w1 pre L (by omega)]
        simp only [Out.bind]
        have := ih vs (fun p h => hp p (List.mem_cons_of_mem _ h)) (fun v h => hw v (List.mem_cons_of_mem _ h)) (by simpa using hl)
          (fun hf => h ⟨hv, hf⟩) (pre ++ b1) (L - p.len * p.elements) (by omega)
        rw [List.length_append, l1] at this
        exact this
      · rw [writeArgs, writeArg_not_fits hv (hw v (by simp)) pre L (by omega)]; rfl

/-! ### Receiving any datagram -/

theorem fetch_ok {buf : List Nat} {i n : Nat} (h : i + n ≤ buf.length) : ∃ bs, fetch buf i n = .ok bs ∧ bs.length = n := by
  refine ⟨_, by rw [fetch, if_pos h], ?_⟩
  simp; omega

theorem readElem_ok {b : Base} {len : Nat} (h : match b with
    | .int => len = 2 ∨ len = 4
    | .float => len = 4
    | .bool => len = 1 ∨ len = 2 ∨ len = 4
    | .string => True) {buf : List Nat} {i : Nat} (hl : i + len ≤ buf.length) : ∃ v : Sc F, readElem F b len buf i = .ok v ∧ v.base = b := by
  obtain ⟨bs, h1, -⟩ := fetch_ok hl
  cases b <;> simp only at h
  · rcases h with rfl | rfl | rfl
    · exact ⟨.bool (decide (number bs ≠ 0)), by simp only [readElem, if_true, h1, Out.bind], rfl⟩
    · exact ⟨.bool (decide (dec16 bs ≠ 0)), by simp [readElem, h1, Out.bind], rfl⟩
    · exact ⟨.bool (decide (dec32 bs ≠ 0)), by simp [readElem, h1, Out.bind], rfl⟩
  · rcases h with rfl | rfl
    · exact ⟨.int (dec16 bs), by simp [readElem, h1, Out.bind], rfl⟩
    · exact ⟨.int (dec32 bs), by simp [readElem, h1, Out.bind], rfl⟩
  · subst h; exact ⟨.real (F.ofBits (number bs)), by simp [readElem, h1, Out.bind], rfl⟩
  · exact ⟨.str (cString bs), by simp [readElem, h1, Out.bind], rfl⟩

theorem readElems_ok {b : Base} {len : Nat} (h : match b with
    | .int => len = 2 ∨ len = 4
    | .float => len = 4
    | .bool => len = 1 ∨ len = 2 ∨ len = 4
    | .string => True) {buf : List Nat} : ∀ (n i : Nat), i + len * n ≤ buf.length →
    ∃ vs : List (Option (Sc F)), readElems F b len n buf i = .ok vs ∧ vs.length = n ∧ ∀ o ∈ vs, ∃ v, o = some v ∧ v.base = b := by
  intro n
  induction n with
  | zero => intro i _; exact ⟨[], rfl, rfl, by simp⟩
  | succ n ih =>
    intro i hl
    rw [Nat.mul_add] at hl
    obtain ⟨v, hv, hb⟩ := readElem_ok (F := F) h (buf := buf) (i := i) (by omega)
    obtain ⟨vs, h1, h2, h3⟩ := ih (i + len) (by omega)
    refine ⟨some v :: vs, by simp only [readElems, hv, Out.bind, h1], by simp [h2], ?_⟩
    intro o ho
    rcases List.mem_cons.mp ho with rfl | ho
    · exact ⟨v, rfl, hb⟩
    · exact h3 o ho

theorem readArg_ok {p : Param} (hp : p.usable) {buf : List Nat} {i : Nat} (hl : i + p.len * p.elements ≤ buf.length) :
    ∃ v : Val F, readArg F p buf i = .ok v ∧ v.isOf p := by
  obtain ⟨hp, hf⟩ := hp
  simp only [Param.valid, Bool.and_eq_true] at hp
  have hlen : match p.base with
      | .int => p.len = 2 ∨ p.len = 4
      | .float => p.len = 4
      | .bool => p.len = 1 ∨ p.len = 2 ∨ p.len = 4
      | .string => True := by
    have := hp.1.2
    cases hb : p.base <;> rw [hb] at this <;> simp only
    · simpa using this
    · simpa using this
    · exact hf hb
  cases ha : p.array with
  | true =>
    obtain ⟨vs, h1, h2, h3⟩ := readElems_ok (F := F) hlen p.elements i hl
    exact ⟨.array p.base vs, by simp only [readArg, ha, if_true, h1, Out.bind], ha, rfl, h2, h3⟩
  | false =>
    have he : p.elements = 1 := by
      have := hp.2; rw [ha] at this; simpa using this
    rw [he, Nat.mul_one] at hl
    obtain ⟨v, h1, h2⟩ := readElem_ok (F := F) hlen hl
    exact ⟨.scalar v, by simp [readArg, ha, h1, Out.bind], ha, h2⟩

theorem handle_ok : ∀ (ps : List Param), (∀ p ∈ ps, p.usable) → ∀ (buf : List Nat) (i : Nat), i + msgLen ps ≤ buf.length →
    ∃ vs : List (Val F), handle F ps buf i = .ok (vs, true) ∧ List.Forall₂ (fun p v => v.isOf p) ps vs := by
  intro ps
  induction ps with
  | nil => intro _ buf i _; exact ⟨[], rfl, .nil⟩
  | cons p ps ih =>
    intro hp buf i hl
    rw [msgLen] at hl
    obtain ⟨v, h1, h2⟩ := readArg_ok (F := F) (hp p (by simp)) (buf := buf) (i := i) (by omega)
    obtain ⟨vs, h3, h4⟩ := ih (fun p h => hp p (List.mem_cons_of_mem _ h)) buf (i + p.len * p.elements) (by omega)
    exact ⟨v :: vs, by simp only [handle, h1, h3, Out.bind], .cons h2 h4⟩

end Verif.Udp
