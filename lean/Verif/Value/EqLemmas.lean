import Verif.Value.OrderLemmas
/- Helper lemmas relating `Value.equals` and `Value.lessThan`. -/
namespace Verif.Value

theorem Dbl.eq_iff {a b : Dbl} (ha : a ≠ .nan) : Dbl.eq a b = true ↔ a = b := by
  cases a <;> cases b <;> simp_all [Dbl.eq]

theorem Dbl.eq_symm (a b : Dbl) : Dbl.eq a b = Dbl.eq b a := by
  cases a <;> cases b <;> simp [Dbl.eq, eq_comm]

theorem Dbl.ofI32_inj {i j : I32} (h : Dbl.ofI32 i = Dbl.ofI32 j) : i = j := by
  simp only [Dbl.ofI32, Dbl.fin.injEq] at h
  apply BitVec.eq_of_toInt_eq
  apply Int.eq_of_mul_eq_mul_right _ h
  have := Nat.two_pow_pos 1074
  omega

/-- What `Value::equals` compares of a known value. -/
inductive EqKey
  | num (d : Dbl)
  | reals (known : List Bool) (ds : List Dbl)
  | other (p : Payload)

def Payload.ekey : Payload → EqKey
  | .int i => .num (.ofI32 i)
  | .real r => .num (.ofBits r)
  | .realArr a => .reals a.known (a.contents.map Dbl.ofBits)
  | p => .other p

theorem vecEq_iff {α} {eq : α → α → Bool} (h : ∀ x y, eq x y = true ↔ x = y) :
    ∀ l m : List α, vecEq eq l m = true ↔ l = m
  | [], [] => by simp [vecEq]
  | [], _ :: _ => by simp [vecEq]
  | _ :: _, [] => by simp [vecEq]
  | a :: as, b :: bs => by simp [vecEq, h, vecEq_iff h as bs]

theorem vecEq_f64 : ∀ l m : List F64, (∀ r ∈ l, Dbl.ofBits r ≠ .nan) →
    (vecEq f64Eq l m = true ↔ l.map Dbl.ofBits = m.map Dbl.ofBits)
  | [], [], _ => by simp [vecEq]
  | [], _ :: _, _ => by simp [vecEq]
  | _ :: _, [], _ => by simp [vecEq]
  | a :: as, b :: bs, h => by
    have h1 : Dbl.ofBits a ≠ .nan := h a (by simp)
    have ih := vecEq_f64 as bs (fun r hr => h r (by simp [hr]))
    simp [vecEq, f64Eq, Dbl.eq_iff h1, ih]

theorem Arr.eq_iff {α} {eq : α → α → Bool} (h : ∀ x y, eq x y = true ↔ x = y) (a b : Arr α) :
    Arr.eq eq a b = true ↔ a = b := by
  cases a; cases b
  simp only [Arr.eq, Arr.mk.injEq]
  split <;> rename_i hk <;> simp_all [vecEq_iff h]

theorem equals_known_iff (p q : Payload) (hp : p.noNaN) :
    Value.equals (.known p) (.known q) = true ↔ p.ekey = q.ekey := by
  cases p <;> cases q
  all_goals first
    | (simp [Value.equals, Payload.ekey, Arr.eq_iff]; done)
    | skip
  · rename_i i j
    simp only [Value.equals, Payload.ekey, EqKey.num.injEq, decide_eq_true_eq]
    exact ⟨fun h => by rw [h], Dbl.ofI32_inj⟩
  · rename_i i r
    simp only [Value.equals, Payload.ekey, EqKey.num.injEq]
    rw [Dbl.eq_symm, Dbl.eq_iff (ofI32_ne_nan _)]
  · simp only [Value.equals, Payload.ekey, EqKey.num.injEq]
    rw [Dbl.eq_iff hp]
  · simp only [Value.equals, Payload.ekey, EqKey.num.injEq, f64Eq]
    rw [Dbl.eq_iff hp]
  · rename_i a b
    simp only [Value.equals, Payload.ekey, EqKey.reals.injEq, Arr.eq]
    split
    · rename_i hk; simp [hk]
    · rename_i hk
      simp only [Decidable.not_not] at hk
      rw [vecEq_f64 _ _ hp]; simp [hk]

theorem arrBody_f64 (ks : List Bool) : ∀ (xs ys : List F64), xs.map Dbl.ofBits = ys.map Dbl.ofBits →
    arrBody (fun r => (Dbl.ofBits r).key) ks xs = arrBody (fun r => (Dbl.ofBits r).key) ks ys := by
  induction ks with
  | nil => intro xs ys _; simp [arrBody]
  | cons k ks ih =>
    intro xs ys h
    match xs, ys, h with
    | [], [], _ => rfl
    | [], _ :: _, h => simp at h
    | _ :: _, [], h => simp at h
    | x :: xs, y :: ys, h =>
      simp only [List.map_cons, List.cons.injEq] at h
      simp only [arrBody, h.1, ih xs ys h.2]

theorem key_of_ekey {p q : Payload} (h : p.ekey = q.ekey) :
    p.cls :: p.bodyKey = q.cls :: q.bodyKey := by
  cases p <;> cases q <;> simp only [Payload.ekey, EqKey.other.injEq, EqKey.num.injEq, EqKey.reals.injEq, reduceCtorEq] at h
  all_goals first
    | (subst h; rfl)
    | (cases h; rfl)
    | skip
  all_goals first
    | (simp only [Payload.cls, Payload.bodyKey]; rw [h]; done)
    | skip
  rename_i a b
  simp only [Payload.cls, Payload.bodyKey, Arr.key, Arr.size]
  rw [h.1, arrBody_f64 _ _ _ h.2]

/-- Unknown slots hold the default. -/
def canonList {α} (dflt : α) : List Bool → List α → Prop
  | k :: ks, x :: xs => (k = false → x = dflt) ∧ canonList dflt ks xs
  | _, _ => True

theorem loop_incomparable {α} {lt eq : α → α → Bool} {P : α → Prop} {dflt : α}
    (hd : eq dflt dflt = true)
    (he : ∀ x y, P x → P y → lt x y = false → lt y x = false → eq x y = true) :
    ∀ (ka kb : List Bool) (xs ys : List α),
    xs.length = ka.length → ys.length = kb.length → ka.length = kb.length →
    (∀ x ∈ xs, P x) → (∀ y ∈ ys, P y) → canonList dflt ka xs → canonList dflt kb ys →
    arrLtLoop lt ka kb xs ys = false → arrLtLoop lt kb ka ys xs = false →
    ka = kb ∧ vecEq eq xs ys = true
  | [], [], [], [], _, _, _, _, _, _, _, _, _ => by simp [vecEq]
  | ka :: kas, kb :: kbs, x :: xs, y :: ys, h1, h2, h3, px, py, c1, c2, l1, l2 => by
    have ih := loop_incomparable hd he kas kbs xs ys (by simpa using h1) (by simpa using h2) (by simpa using h3)
      (fun x hx => px x (by simp [hx])) (fun x hx => py x (by simp [hx])) c1.2 c2.2
    have hxy := he x y (px x (by simp)) (py y (by simp))
    cases ka <;> cases kb
    · simp [arrLtLoop] at l1 l2
      obtain ⟨r1, r2⟩ := ih l1 l2
      simp [r1, vecEq, r2, c1.1 rfl, c2.1 rfl, hd]
    · simp [arrLtLoop] at l1
    · simp [arrLtLoop] at l2
    · simp only [arrLtLoop] at l1 l2
      by_cases e1 : lt x y = true
      · simp [e1] at l1
      · by_cases e2 : lt y x = true
        · simp [e2] at l2
        · simp [e1, e2] at l1 l2
          obtain ⟨r1, r2⟩ := ih l1 l2
          simp [r1, vecEq, r2, hxy (by simpa using e1) (by simpa using e2)]
  | [], _ :: _, _, _, _, _, h, _, _, _, _, _, _ => by simp at h
  | _ :: _, [], _, _, _, _, h, _, _, _, _, _, _ => by simp at h
  | [], [], _ :: _, _, h, _, _, _, _, _, _, _, _ => by simp at h
  | [], [], [], _ :: _, _, h, _, _, _, _, _, _, _ => by simp at h
  | _ :: _, _ :: _, [], _, h, _, _, _, _, _, _, _, _ => by simp at h
  | _ :: _, _ :: _, _ :: _, [], _, h, _, _, _, _, _, _, _ => by simp at h

theorem arr_incomparable {α} {lt eq : α → α → Bool} {P : α → Prop} {dflt : α}
    (hd : eq dflt dflt = true)
    (he : ∀ x y, P x → P y → lt x y = false → lt y x = false → eq x y = true)
    (a b : Arr α) (wa : a.WF) (wb : b.WF) (pa : ∀ x ∈ a.contents, P x) (pb : ∀ x ∈ b.contents, P x)
    (ca : canonList dflt a.known a.contents) (cb : canonList dflt b.known b.contents)
    (h1 : Arr.lt lt a b = false) (h2 : Arr.lt lt b a = false) : Arr.eq eq a b = true := by
  unfold Arr.lt at h1 h2
  split at h1
  · cases h1
  · split at h1
    · simp_all
    · rename_i n1 n2
      rw [if_neg n2, if_neg (by omega)] at h2
      have hk := loop_incomparable hd he _ _ _ _ wa wb (by unfold Arr.size at n1 n2; omega) pa pb ca cb h1 h2
      simp [Arr.eq, hk.1, hk.2]

theorem strLt_incomparable : ∀ a b : Str, strLt a b = false → strLt b a = false → a = b
  | [], [], _, _ => rfl
  | [], _ :: _, h, _ => by simp [strLt] at h
  | _ :: _, [], _, h => by simp [strLt] at h
  | a :: as, b :: bs, h1, h2 => by
    simp only [strLt] at h1 h2
    split at h1
    · cases h1
    · split at h1
      · simp_all
      · rename_i n1 n2
        rw [if_neg n2, if_neg n1] at h2
        rw [strLt_incomparable as bs h1 h2]
        rw [show a = b from BitVec.eq_of_toNat_eq (by omega)]

theorem dbl_incomparable (a b : Dbl) (ha : a ≠ .nan) (hb : b ≠ .nan)
    (h1 : Dbl.lt a b = false) (h2 : Dbl.lt b a = false) : Dbl.eq a b = true := by
  cases a <;> cases b <;> simp_all [Dbl.lt, Dbl.eq]; omega

theorem i32_incomparable (a b : I32) (h1 : i32Lt a b = false) (h2 : i32Lt b a = false) : a = b := by
  simp [i32Lt] at h1 h2
  exact BitVec.eq_of_toInt_eq (by omega)

end Verif.Value
