import Verif.Queue.Model
/- Refinement of the pointer queues to lists: helper lemmas. -/
namespace Verif.Queue

/-- Following `next` from `p` visits exactly `l` and ends with null. -/
def Chain (h : Heap) : Option Item → List Item → Prop
  | p, [] => p = none
  | p, a :: l => p = some a ∧ Chain h (h a) l

/-- The queue `q` in heap `h` represents the list `l`. -/
structure Rep (h : Heap) (q : LQ) (l : List Item) : Prop where
  chain : Chain h q.head l
  tail : q.tail = l.getLast?
  count : q.count = l.length
  nodup : l.Nodup

theorem Chain.congr {h h' : Heap} : ∀ {p l}, (∀ x ∈ l, h' x = h x) → Chain h p l → Chain h' p l
  | _, [], _, hc => hc
  | _, a :: l, he, hc => by
    refine ⟨hc.1, ?_⟩
    rw [he a (by simp)]
    exact Chain.congr (fun x hx => he x (by simp [hx])) hc.2

@[simp] theorem set_same (h : Heap) (a v) : h.set a v a = v := by simp [Heap.set]
theorem set_other (h : Heap) {a x : Item} (v) (hne : x ≠ a) : h.set a v x = h x := by simp [Heap.set, hne]

theorem Chain.set {h : Heap} {a v p l} (ha : a ∉ l) (hc : Chain h p l) : Chain (h.set a v) p l :=
  Chain.congr (fun _ hx => set_other h v (fun e => ha (e ▸ hx))) hc

theorem Chain.head_eq {h : Heap} {p l} (hc : Chain h p l) : p = l.head? := by
  cases l with
  | nil => exact hc
  | cons a l => exact hc.1

theorem getLast?_app (l : List Item) (b : Item) (m : List Item) :
    (l ++ b :: m).getLast? = (b :: m).getLast? := by
  rw [List.getLast?_append, List.getLast?_eq_some_getLast (List.cons_ne_nil b m)]; rfl

/-- Appending behind the last element. -/
theorem Chain.append {h : Heap} : ∀ {p l} (b : Item), l.Nodup → Chain h p l → b ∉ l → ∀ hl : l ≠ [],
    Chain ((h.set b none).set (l.getLast hl) (some b)) p (l ++ [b])
  | _, [], _, _, _, _, hl => absurd rfl hl
  | _, [a], b, _, hc, hb, _ => by
    have hab : b ≠ a := by simpa using hb
    refine ⟨hc.1, ?_⟩
    simp [Chain, set_other _ _ hab]
  | _, a :: c :: l, b, hn, hc, hb, hl => by
    have hn' := List.nodup_cons.mp hn
    refine ⟨hc.1, ?_⟩
    have ih := Chain.append b hn'.2 hc.2 (by simp at hb ⊢; exact hb.2) (by simp)
    have ha : ((h.set b none).set ((c :: l).getLast (by simp)) (some b)) a = h a := by
      rw [set_other, set_other]
      · intro e; subst e; simp at hb
      · intro e
        exact hn'.1 (e ▸ List.getLast_mem (by simp))
    simp only [List.getLast_cons_cons, List.cons_append] at *
    rw [ha]
    exact ih

theorem push_rep {h : Heap} {q : LQ} {l : List Item} {b : Item} (hr : Rep h q l) (hb : b ∉ l) (hfree : h b = none) :
    ∃ h' q', push h q b = .ok (h', q') ∧ Rep h' q' (l ++ [b]) ∧
      (∀ x, x ∉ l → x ≠ b → h' x = h x) ∧ (h' b = none) := by
  unfold push
  simp only [hfree, Option.isSome_none, Bool.false_eq_true, if_false]
  have hh := hr.chain.head_eq
  cases l with
  | nil =>
    simp at hh
    rw [hh]
    refine ⟨_, _, rfl, ⟨⟨rfl, ?_⟩, rfl, by simp [hr.count], by simp⟩, ?_, ?_⟩
    · simp [Chain]
    · intro x _ hx; exact set_other _ _ hx
    · simp
  | cons a l =>
    have ht := hr.tail
    simp at hh
    rw [List.getLast?_eq_some_getLast (by simp)] at ht
    rw [hh, ht]
    refine ⟨_, _, rfl, ⟨?_, by rw [getLast?_app]; rfl, by simp [hr.count], ?_⟩, ?_, ?_⟩
    · exact hh ▸ Chain.append b hr.nodup hr.chain hb (by simp)
    · rw [List.nodup_append]
      refine ⟨hr.nodup, by simp, ?_⟩
      intro x hx y hy
      simp at hy; subst hy
      exact fun e => hb (e ▸ hx)
    · intro x hx hxb
      rw [set_other, set_other _ _ hxb]
      exact fun e => hx (e ▸ List.getLast_mem (by simp))
    · rw [set_other]; · simp
      exact fun e => hb (e ▸ List.getLast_mem (by simp))

theorem pop_rep {h : Heap} {q : LQ} {l : List Item} (hr : Rep h q l) :
    ∃ h' q', pop h q = .ok (h', q') ∧ Rep h' q' l.tail ∧ (∀ x, x ∉ l → h' x = h x) ∧
      (∀ x, l.head? = some x → h' x = none) := by
  unfold pop
  have hh := hr.chain.head_eq
  have hc := hr.count
  have ht := hr.tail
  cases l with
  | nil => simp at hh; rw [hh]; exact ⟨_, _, rfl, by simpa using hr, by simp, by simp⟩
  | cons a l =>
    simp at hh
    rw [hh]
    simp only [List.length_cons] at hc
    cases l with
    | nil =>
      simp at ht
      rw [ht]
      refine ⟨h.set a none, {}, by simp [decr, hc]; rfl, ⟨rfl, rfl, rfl, by simp⟩, ?_, ?_⟩
      · intro x hx; exact set_other _ _ (by simpa using hx)
      · simp
    | cons b l =>
      have hn := List.nodup_cons.mp hr.nodup
      have hne : some a ≠ q.tail := by
        rw [ht, List.getLast?_cons_cons, List.getLast?_eq_some_getLast (by simp)]
        intro e; cases e
        exact hn.1 (List.getLast_mem _)
      simp only [if_neg hne]
      have hc2 := hr.chain.2
      rw [hc2.1]
      refine ⟨h.set a none, { q with head := some b, count := l.length + 1 }, by simp [decr, hc]; rfl, ⟨?_, ?_, ?_, hn.2⟩, ?_, ?_⟩
      · have := Chain.set (v := none) hn.1 hc2
        rw [hc2.1] at this
        exact this
      · rw [ht, List.tail_cons, List.getLast?_cons_cons]
      · simp
      · intro x hx; exact set_other _ _ (by intro e; subst e; simp at hx)
      · simp

/-- A chain through `l₁ ++ a :: l₂` passes `a`. -/
theorem Chain.split {h : Heap} : ∀ {p} (l₁ : List Item) {l₂}, Chain h p (l₁ ++ l₂) →
    Chain h (match l₁.getLast? with | none => p | some z => h z) l₂
  | _, [], _, hc => by simpa using hc
  | _, [a], _, hc => by simpa using hc.2
  | _, a :: b :: l₁, l₂, hc => by
    have := Chain.split (b :: l₁) hc.2
    rw [List.getLast?_cons_cons]
    cases hg : (b :: l₁).getLast? with
    | none => simp at hg
    | some z => rw [hg] at this; exact this

/-- Unlinking the element after the prefix `l₁`. -/
theorem Chain.relink {h : Heap} : ∀ {p} (l₁ : List Item) {l₂ : List Item} {v : Option Item} (z : Item), l₁.getLast? = some z →
    (l₁ ++ l₂).Nodup → Chain h p (l₁ ++ l₂) → ∀ {l₃}, Chain h v l₃ → (∀ x ∈ l₃, x ∉ l₁) →
    Chain (h.set z v) p (l₁ ++ l₃)
  | _, [], _, _, _, hz, _, _, _, _, _ => by simp at hz
  | _, [a], l₂, v, z, hz, hn, hc, l₃, h3, hd => by
    simp at hz; subst hz
    refine ⟨hc.1, ?_⟩
    rw [set_same]
    exact Chain.set (fun hm => hd _ hm (by simp)) h3
  | _, a :: b :: l₁, l₂, v, z, hz, hn, hc, l₃, h3, hd => by
    rw [List.getLast?_cons_cons] at hz
    have hn' := List.nodup_cons.mp hn
    refine ⟨hc.1, ?_⟩
    have ih := Chain.relink (b :: l₁) z hz hn'.2 hc.2 h3 (fun x hx => by have := hd x hx; simp at this ⊢; exact this.2)
    have hza : a ≠ z := by
      intro e; subst e
      exact hn'.1 (List.mem_append.mpr (.inl (List.mem_of_getLast? hz)))
    rw [set_other _ _ hza]
    exact ih

/-- What `unlinkLoop` does to the represented list. -/
theorem unlinkLoop_spec (pred : Item → Bool) (h : Heap) (q : LQ) (l : List Item) (hr : Rep h q l) :
    ∀ (l₂ l₁ : List Item) (fuel : Nat) , l = l₁ ++ l₂ → (∀ x ∈ l₁, pred x = false) → l₂.length ≤ fuel →
    ∃ h' q', unlinkLoop pred h q fuel l₁.getLast? (match l₁.getLast? with | none => q.head | some z => h z)
        = .ok (h', q', l.find? pred) ∧
      (l.find? pred = none → h' = h ∧ q' = q) ∧
      (∀ x, l.find? pred = some x → Chain h' q'.head (l.eraseP pred) ∧ q'.tail = (l.eraseP pred).getLast? ∧
        q'.count = l.length ∧ (∀ y, y ∉ l → h' y = h y)) := by
  intro l₂
  induction l₂ with
  | nil =>
    intro l₁ fuel hl hp _
    have hc := Chain.split l₁ (l₂ := []) (by rw [← hl]; exact hr.chain)
    have hc' : (match l₁.getLast? with | none => q.head | some z => h z) = none := hc
    rw [hc']
    have hf : l.find? pred = none := by rw [hl]; simpa using hp
    rw [hf]
    refine ⟨h, q, by cases fuel <;> rfl, fun _ => ⟨rfl, rfl⟩, ?_⟩
    intro x hx; cases hx
  | cons a l₂ ih =>
    intro l₁ fuel hl hp hfuel
    have hc := Chain.split l₁ (l₂ := a :: l₂) (by rw [← hl]; exact hr.chain)
    have hc1 : (match l₁.getLast? with | none => q.head | some z => h z) = some a := hc.1
    rw [hc1]
    cases fuel with
    | zero => simp at hfuel
    | succ fuel =>
      unfold unlinkLoop
      by_cases hpa : pred a = true
      · simp only [hpa, if_true]
        have hf : l.find? pred = some a := by
          rw [hl, List.find?_append]
          have : l₁.find? pred = none := by simpa using hp
          simp [this, hpa]
        have her : l.eraseP pred = l₁ ++ l₂ := by
          rw [hl, List.eraseP_append_right _ (by simpa using hp)]
          simp [hpa]
        rw [hf, her]
        have hnd : (l₁ ++ a :: l₂).Nodup := hl ▸ hr.nodup
        have hnd2 : (l₁ ++ l₂).Nodup := by
          refine List.Nodup.sublist ?_ hnd
          simp
        have hal2 : a ∉ l₂ := by
          have := (List.nodup_append.mp hnd).2.1
          exact (List.nodup_cons.mp this).1
        have hal1 : a ∉ l₁ := fun hm => (List.nodup_append.mp hnd).2.2 a hm a (by simp) rfl
        -- tail
        have htail : q.tail = (l₁ ++ a :: l₂).getLast? := by rw [← hl]; exact hr.tail
        have tailfix : (if q.tail = some a then l₁.getLast? else q.tail) = (l₁ ++ l₂).getLast? := by
          rw [htail]
          cases l₂ with
          | nil => simp
          | cons b l₂ =>
            have e1 : (l₁ ++ a :: b :: l₂).getLast? = (b :: l₂).getLast? := by
              rw [getLast?_app, List.getLast?_cons_cons]
            have e2 : (l₁ ++ b :: l₂).getLast? = (b :: l₂).getLast? := getLast?_app _ _ _
            rw [e1, e2, if_neg]
            intro e
            exact hal2 (List.mem_of_getLast? e)
        cases hg : l₁.getLast? with
        | none =>
          have : l₁ = [] := by simpa using hg
          subst this
          simp only [List.nil_append] at *
          simp only [setLink]
          refine ⟨_, _, rfl, by simp, ?_⟩
          intro x _
          have tf := tailfix
          simp only [List.getLast?_nil] at tf
          refine ⟨?_, ?_, ?_, fun _ _ => rfl⟩
          · by_cases ht : q.tail = some a
            · simp only [ht, if_true]; exact hc.2
            · simp only [ht, if_false]; exact hc.2
          · by_cases ht : q.tail = some a
            · rw [if_pos ht] at tf; simp only [ht, if_true]; exact tf
            · rw [if_neg ht] at tf; simp only [ht, if_false]; exact tf
          · by_cases ht : q.tail = some a
            · simp only [ht, if_true]; exact hr.count
            · simp only [ht, if_false]; exact hr.count
        | some z =>
          simp only [setLink]
          refine ⟨_, _, rfl, by simp, ?_⟩
          intro x _
          have tf := tailfix
          rw [hg] at tf
          refine ⟨?_, ?_, ?_, ?_⟩
          · have hch : Chain h q.head (l₁ ++ a :: l₂) := by rw [← hl]; exact hr.chain
            have := Chain.relink l₁ z hg hnd hch hc.2 (fun x hx hm => (List.nodup_append.mp hnd2).2.2 x hm x hx rfl)
            by_cases ht : q.tail = some a
            · simp only [ht, if_true]; exact this
            · simp only [ht, if_false]; exact this
          · by_cases ht : q.tail = some a
            · rw [if_pos ht] at tf; simp only [ht, if_true]; exact tf
            · rw [if_neg ht] at tf; simp only [ht, if_false]; exact tf
          · by_cases ht : q.tail = some a
            · simp only [ht, if_true]; exact hr.count
            · simp only [ht, if_false]; exact hr.count
          · intro y hy
            apply set_other
            intro e; subst e
            apply hy; rw [hl, List.mem_append]; left
            exact List.mem_of_getLast? hg
      · have hpa' : pred a = false := by simpa using hpa
        simp only [hpa', Bool.false_eq_true, if_false]
        have := ih (l₁ ++ [a]) fuel (by simp [hl]) (by
          intro x hx; rw [List.mem_append] at hx
          rcases hx with hx | hx
          · exact hp x hx
          · simp at hx; subst hx; exact hpa') (by simpa using hfuel)
        simpa using this

theorem removeIf_rep {h : Heap} {q : LQ} {l : List Item} (pred : Item → Bool) (fuel : Nat) (hr : Rep h q l)
    (hf : l.length ≤ fuel) :
    ∃ h' q', removeIf fuel pred h q = .ok (h', q', l.find? pred) ∧ Rep h' q' (l.eraseP pred) ∧
      (∀ x, x ∉ l → h' x = h x) ∧ (∀ x, l.find? pred = some x → h' x = none) := by
  obtain ⟨h', q', he, hnone, hsome⟩ := unlinkLoop_spec pred h q l hr l [] fuel rfl (by simp) hf
  simp only [List.getLast?_nil] at he
  unfold removeIf
  rw [he]
  cases hfd : l.find? pred with
  | none =>
    obtain ⟨rfl, rfl⟩ := hnone hfd
    refine ⟨h', q', rfl, ?_, fun _ _ => rfl, by simp⟩
    rw [List.eraseP_of_forall_not (by simpa using hfd)]
    exact hr
  | some x =>
    obtain ⟨c1, c2, c3, c4⟩ := hsome x hfd
    have hxl : x ∈ l := List.mem_of_find?_eq_some hfd
    have hpx : pred x = true := by have := List.find?_some hfd; simpa using this
    have hlen : (l.eraseP pred).length = l.length - 1 := List.length_eraseP_of_mem hxl hpx
    have hpos : 0 < l.length := List.length_pos_of_mem hxl
    have hxn : x ∉ l.eraseP pred := by
      intro hm
      obtain ⟨l₁, l₂, hn, hsplit, her⟩ : ∃ l₁ l₂, (∀ b ∈ l₁, ¬ pred b = true) ∧ l = l₁ ++ x :: l₂ ∧ l.eraseP pred = l₁ ++ l₂ := by
        obtain ⟨a, l₁, l₂, h1, h2, h3, h4⟩ := List.exists_of_eraseP hxl hpx
        have : l.find? pred = some a := by
          rw [h3, List.find?_append]
          have : l₁.find? pred = none := by simpa using h1
          simp [this, h2]
        rw [hfd] at this; cases this
        exact ⟨l₁, l₂, h1, h3, h4⟩
      rw [her] at hm
      have hnd := hr.nodup
      rw [hsplit] at hnd
      rw [List.mem_append] at hm
      rcases hm with hm | hm
      · exact (List.nodup_append.mp hnd).2.2 x hm x (by simp) rfl
      · exact (List.nodup_cons.mp (List.nodup_append.mp hnd).2.1).1 hm
    refine ⟨h'.set x none, { q' with count := l.length - 1 }, ?_, ⟨?_, c2, hlen.symm, ?_⟩, ?_, ?_⟩
    · show (do let c ← decr q'.count; _) = _
      rw [c3]
      simp only [decr, if_neg (Nat.pos_iff_ne_zero.mp hpos)]
      rfl
    · exact Chain.set hxn c1
    · exact List.Nodup.sublist (List.eraseP_sublist) hr.nodup
    · intro y hy
      rw [set_other _ _ (fun (e : y = x) => hy (e ▸ hxl))]
      exact c4 y hy
    · intro y hy; cases hy; simp

theorem eraseP_beq (l : List Item) (x : Item) : l.eraseP (fun c => x == c) = l.erase x := by
  rw [List.erase_eq_eraseP']
  congr 1; funext c; exact Bool.beq_comm

theorem remove_rep {h : Heap} {q : LQ} {l : List Item} (x : Item) (fuel : Nat) (hr : Rep h q l) (hf : l.length ≤ fuel) :
    ∃ h' q', remove fuel h q (some x) = .ok (h', q') ∧ Rep h' q' (l.erase x) ∧
      (∀ y, y ∉ l → h' y = h y) ∧ (x ∈ l → h' x = none) := by
  obtain ⟨h', q', he, hrep, hfr, hx⟩ := removeIf_rep (fun c => x == c) fuel hr hf
  rw [eraseP_beq] at hrep
  refine ⟨h', q', ?_, hrep, hfr, ?_⟩
  · unfold remove
    unfold removeIf at he
    have hh := hr.chain.head_eq
    cases l with
    | nil =>
      simp at hh
      simp [LQ.empty, hh]
      rw [hh] at he
      have : unlinkLoop (fun c => x == c) h q fuel none none = .ok (h, q, none) := by
        cases fuel <;> rfl
      rw [this] at he
      cases he; exact ⟨rfl, rfl⟩
    | cons a l =>
      simp at hh
      have hemp : q.empty = false := by simp [LQ.empty, hh]
      simp only [hemp, Bool.false_eq_true, if_false]
      cases hu : unlinkLoop (fun c => x == c) h q fuel none q.head with
      | error e => rw [hu] at he; cases he
      | ok r =>
        obtain ⟨h1, q1, fd⟩ := r
        rw [hu] at he
        cases fd with
        | none =>
          have he : Except.ok (h1, q1, none) = Except.ok (h', q', List.find? (fun c => x == c) (a :: l)) := he
          injection he with he
          injection he with e1 e2
          injection e2 with e2 _
          subst e1 e2
          rfl
        | some r =>
          have he : (do let c ← decr q1.count; Except.ok (h1.set r none, { q1 with count := c }, some r)) = Except.ok (h', q', List.find? (fun c => x == c) (a :: l)) := he
          have hxr : r = x := by
            cases hd : decr q1.count with
            | error e => rw [hd] at he; cases he
            | ok c =>
              rw [hd] at he
              injection he with he
              injection he with _ he
              injection he with _ he
              have := List.find?_some he.symm
              simp at this; exact this.symm
          subst hxr
          show (do let c ← decr q1.count; Except.ok (h1.set r none, { q1 with count := c })) = _
          cases hd : decr q1.count with
          | error e => rw [hd] at he; cases he
          | ok c =>
            rw [hd] at he
            injection he with he
            injection he with e1 he
            injection he with e2 _
            subst e1 e2
            rfl
  · intro hxl
    apply hx
    cases hfd : l.find? (fun c => x == c) with
    | none => simp at hfd; exact absurd hxl (by intro hm; exact hfd x hm rfl)
    | some y =>
      have := List.find?_some hfd
      simp at this; rw [this]

theorem findIf_rep {h : Heap} (pred : Item → Bool) : ∀ (l : List Item) (p : Option Item) (fuel : Nat),
    Chain h p l → l.length ≤ fuel → findIf pred h fuel p = .ok (l.find? pred)
  | [], p, fuel, hc, _ => by
    have : p = none := hc
    subst this; cases fuel <;> rfl
  | a :: l, p, 0, _, hf => by simp at hf
  | a :: l, p, fuel + 1, hc, hf => by
    rw [hc.1]
    unfold findIf
    by_cases hp : pred a = true
    · simp [hp]
    · simp only [hp, List.find?_cons]
      exact findIf_rep pred l _ fuel hc.2 (by simpa using hf)

theorem iterate_rep {h : Heap} : ∀ (l : List Item) (p : Option Item) (fuel : Nat),
    Chain h p l → l.length ≤ fuel → iterate h fuel p = .ok l
  | [], p, fuel, hc, _ => by
    have : p = none := hc
    subst this; cases fuel <;> rfl
  | a :: l, p, 0, _, hf => by simp at hf
  | a :: l, p, fuel + 1, hc, hf => by
    rw [hc.1]
    unfold iterate
    rw [iterate_rep l _ fuel hc.2 (by simpa using hf)]
    rfl

theorem clearLoop_rep : ∀ (l : List Item) (h : Heap) (p : Option Item) (fuel : Nat),
    l.Nodup → Chain h p l → l.length ≤ fuel →
    ∃ h', clearLoop h fuel p = .ok h' ∧ (∀ x, x ∉ l → h' x = h x) ∧ (∀ x ∈ l, h' x = none)
  | [], h, p, fuel, _, hc, _ => by
    have : p = none := hc
    subst this; exact ⟨h, by cases fuel <;> rfl, fun _ _ => rfl, by simp⟩
  | a :: l, h, p, 0, _, _, hf => by simp at hf
  | a :: l, h, p, fuel + 1, hn, hc, hf => by
    have hn' := List.nodup_cons.mp hn
    rw [hc.1]
    unfold clearLoop
    obtain ⟨h', he, h1, h2⟩ := clearLoop_rep l (h.set a none) (h a) fuel hn'.2 (Chain.set hn'.1 hc.2) (by simpa using hf)
    refine ⟨h', he, ?_, ?_⟩
    · intro x hx
      simp at hx
      rw [h1 x hx.2, set_other _ _ hx.1]
    · intro x hx
      simp at hx
      rcases hx with rfl | hx
      · rw [h1 x hn'.1]; simp
      · exact h2 x hx

theorem clear_rep {h : Heap} {q : LQ} {l : List Item} (fuel : Nat) (hr : Rep h q l) (hf : l.length ≤ fuel) :
    ∃ h' q', clear fuel h q = .ok (h', q') ∧ Rep h' q' [] ∧ (∀ x, x ∉ l → h' x = h x) ∧ (∀ x ∈ l, h' x = none) := by
  obtain ⟨h', he, h1, h2⟩ := clearLoop_rep l h q.head fuel hr.nodup hr.chain hf
  refine ⟨h', {}, ?_, ⟨rfl, rfl, rfl, by simp⟩, h1, h2⟩
  unfold clear
  rw [he]; rfl

/-- Position found by `PriorityQueue::insert`. -/
theorem findPlace_spec (comp : Item → Item → Bool) (item : Item) (h : Heap) :
    ∀ (l₂ l₁ : List Item) (p : Option Item) (fuel : Nat), Chain h p l₂ → l₂.length ≤ fuel →
    findPlace comp item h fuel l₁.getLast? p =
      .ok ((l₁ ++ l₂.takeWhile (fun c => !comp item c)).getLast?, (l₂.dropWhile (fun c => !comp item c)).head?)
  | [], l₁, p, fuel, hc, _ => by
    have : p = none := hc
    subst this; cases fuel <;> simp [findPlace]
  | a :: l₂, l₁, p, 0, _, hf => by simp at hf
  | a :: l₂, l₁, p, fuel + 1, hc, hf => by
    rw [hc.1]
    unfold findPlace
    by_cases hp : comp item a = true
    · simp [hp]
    · have ih := findPlace_spec comp item h l₂ (l₁ ++ [a]) _ fuel hc.2 (by simpa using hf)
      simp only [hp]
      rw [List.getLast?_concat] at ih
      rw [ih]
      simp [hp]

/-- Stable insertion: before the first element that `item` precedes. -/
def insertBefore (comp : Item → Item → Bool) (item : Item) (l : List Item) : List Item :=
  l.takeWhile (fun c => !comp item c) ++ item :: l.dropWhile (fun c => !comp item c)

theorem Chain.insert {h : Heap} {p} (l₁ l₂ : List Item) (b c : Item) (hn : (l₁ ++ c :: l₂).Nodup)
    (hb : b ∉ l₁ ++ c :: l₂) (hc : Chain h p (l₁ ++ c :: l₂)) :
    Chain (match l₁.getLast? with | none => h.set b (some c) | some z => (h.set b (some c)).set z (some b))
      (match l₁.getLast? with | none => some b | some _ => p) (l₁ ++ b :: c :: l₂) := by
  have hs := Chain.split l₁ hc
  have hbm : b ∉ l₁ ∧ b ≠ c ∧ b ∉ l₂ := by simpa [not_or] using hb
  have hbc : b ∉ c :: l₂ := by simp [hbm.2.1, hbm.2.2]
  have hc2 : Chain (h.set b (some c)) (some b) (b :: c :: l₂) := by
    refine ⟨rfl, ?_⟩
    rw [set_same]
    have : Chain h (some c) (c :: l₂) := by
      have := hs.1; rw [this] at hs; exact hs
    exact Chain.set hbc this
  cases hg : l₁.getLast? with
  | none =>
    have : l₁ = [] := by simpa using hg
    subst this
    exact hc2
  | some z =>
    refine Chain.relink (l₂ := c :: l₂) l₁ z hg hn (Chain.set hb hc) hc2 ?_
    intro x hx hm
    simp at hx
    rcases hx with rfl | rfl | hx
    · exact hbm.1 hm
    · exact (List.nodup_append.mp hn).2.2 _ hm _ (by simp) rfl
    · exact (List.nodup_append.mp hn).2.2 _ hm x (by simp [hx]) rfl

theorem pqInsert_rep {h : Heap} {q : LQ} {l : List Item} {b : Item} (comp : Item → Item → Bool) (fuel : Nat)
    (hr : Rep h q l) (hb : b ∉ l) (hfree : h b = none) (hf : l.length ≤ fuel) :
    ∃ h' q', pqInsert fuel comp h q b = .ok (h', q') ∧ Rep h' q' (insertBefore comp b l) ∧
      (∀ x, x ∉ l → x ≠ b → h' x = h x) := by
  have hh := hr.chain.head_eq
  cases l with
  | nil =>
    simp at hh
    obtain ⟨h', q', he, hrep, hfr, _⟩ := push_rep hr hb hfree
    refine ⟨h', q', ?_, by simpa [insertBefore] using hrep, hfr⟩
    unfold pqInsert; rw [hh]; exact he
  | cons a l =>
    simp only [List.head?_cons] at hh
    have hfp := findPlace_spec comp b h (a :: l) [] q.head fuel hr.chain hf
    simp only [List.getLast?_nil, List.nil_append] at hfp
    generalize hL : a :: l = L at *
    have hsplit : L.takeWhile (fun c => !comp b c) ++ L.dropWhile (fun c => !comp b c) = L := List.takeWhile_append_dropWhile
    have htake : ∀ x ∈ L.takeWhile (fun c => !comp b c), x ∈ L := fun x hx => (List.takeWhile_sublist _).subset hx
    unfold insertBefore
    generalize L.takeWhile (fun c => !comp b c) = l₁ at *
    generalize L.dropWhile (fun c => !comp b c) = l₂ at *
    subst hsplit
    have hnd := hr.nodup
    have hnb : (l₁ ++ b :: l₂).Nodup := by
      have hp : (b :: (l₁ ++ l₂)).Nodup := List.nodup_cons.mpr ⟨hb, hnd⟩
      exact (List.perm_middle.symm.nodup_iff).mp hp
    unfold pqInsert
    rw [hh] at hfp ⊢
    rw [hfp]
    cases l₂ with
    | nil =>
      simp only [List.append_nil] at *
      have hl1 : l₁ ≠ [] := by intro e; subst e; simp at hL
      have ht := hr.tail
      rw [List.getLast?_eq_some_getLast hl1] at ht
      simp only [bind, Except.bind, List.head?_nil, ht]
      refine ⟨_, _, rfl, ⟨?_, by simp, by simp [hr.count], hnb⟩, ?_⟩
      · exact hh ▸ Chain.append b hnd hr.chain hb hl1
      · intro x hx hxb
        rw [set_other, set_other _ _ hxb]
        exact fun e => hx (e ▸ List.getLast_mem hl1)
    | cons c l₂ =>
      have hc := Chain.insert l₁ l₂ b c hnd hb hr.chain
      have htl : q.tail = (l₁ ++ b :: c :: l₂).getLast? := by
        rw [hr.tail, getLast?_app, getLast?_app, List.getLast?_cons_cons]
      simp only [bind, Except.bind, List.head?_cons]
      cases hg : l₁.getLast? with
      | none =>
        rw [hg] at hc
        refine ⟨_, _, rfl, ⟨hc, ?_, by simp [setLink, hr.count]; omega, hnb⟩, ?_⟩
        · exact htl
        · intro x _ hxb; exact set_other _ _ hxb
      | some z =>
        rw [hg] at hc
        refine ⟨_, _, rfl, ⟨hc, ?_, by simp [setLink, hr.count]; omega, hnb⟩, ?_⟩
        · exact htl
        · intro x hx hxb
          show ((h.set b (some c)).set z (some b)) x = _
          rw [set_other, set_other _ _ hxb]
          intro e; subst e
          exact hx (List.mem_append.mpr (.inl (List.mem_of_getLast? hg)))

end Verif.Queue
