import Verif.Value.Order
/- Helper lemmas for the ordering laws: every value has a key, a list of integers, such that
`lessThan` is the lexicographic order of the keys. -/
namespace Verif.Value

/-- Lexicographic order on lists of integers. -/
def ilex : List Int → List Int → Bool
  | [], [] => false
  | [], _ :: _ => true
  | _ :: _, [] => false
  | a :: as, b :: bs => if a < b then true else if b < a then false else ilex as bs

theorem ilex_irrefl : ∀ a, ilex a a = false
  | [] => rfl
  | a :: as => by simp [ilex, ilex_irrefl as]

theorem ilex_trans : ∀ a b c, ilex a b = true → ilex b c = true → ilex a c = true
  | [], [], _, h, _ => by simp [ilex] at h
  | [], _ :: _, [], _, h => by simp [ilex] at h
  | [], _ :: _, _ :: _, _, _ => rfl
  | _ :: _, [], _, h, _ => by simp [ilex] at h
  | _ :: _, _ :: _, [], _, h => by simp [ilex] at h
  | a :: as, b :: bs, c :: cs, h1, h2 => by
    have ih := ilex_trans as bs cs
    simp only [ilex] at *
    split at h1 <;> split at h2 <;> split <;> first | rfl | (split <;> first | omega | skip) <;>
      first | omega | skip
    all_goals (try (split at h1 <;> try omega)) 
    all_goals (try (split at h2 <;> try omega))
    all_goals (try exact ih h1 h2)
    all_goals simp_all

theorem ilex_total : ∀ a b, ilex a b = false → ilex b a = false → a = b
  | [], [], _, _ => rfl
  | [], _ :: _, h, _ => by simp [ilex] at h
  | _ :: _, [], _, h => by simp [ilex] at h
  | a :: as, b :: bs, h1, h2 => by
    have ih := ilex_total as bs
    simp only [ilex] at *
    split at h1 
    · cases h1
    · split at h1
      · simp_all
      · have : a = b := by omega
        subst this
        simp at h2
        rw [ih h1 h2]

/-- `key` represents the order `lt` on the elements satisfying `P`, in any context. -/
def Codes {α} (lt : α → α → Bool) (key : α → List Int) (P : α → Prop) : Prop :=
  ∀ x y, P x → P y → ∀ r s, ilex (key x ++ r) (key y ++ s) =
    if lt x y then true else if lt y x then false else ilex r s

theorem codes_bool : Codes boolLt (fun b => [if b then 1 else 0]) (fun _ => True) := by
  intro x y _ _ r s
  cases x <;> cases y <;> simp [boolLt, ilex]

theorem codes_i32 : Codes i32Lt (fun i => [i.toInt]) (fun _ => True) := by
  intro x y _ _ r s
  simp [i32Lt, ilex]

def Dbl.key : Dbl → List Int
  | .nan => [3, 0] | .ninf => [0, 0] | .fin k => [1, k] | .pinf => [2, 0]

theorem codes_dbl : Codes Dbl.lt Dbl.key (fun d => d ≠ .nan) := by
  intro x y hx hy r s
  cases x <;> cases y <;> simp_all [Dbl.lt, Dbl.key, ilex]

theorem codes_f64 : Codes f64Lt (fun r => (Dbl.ofBits r).key) (fun d => Dbl.ofBits d ≠ .nan) :=
  fun _ _ hx hy r s => codes_dbl _ _ hx hy r s

def strKey : Str → List Int
  | [] => [0]
  | c :: cs => ((c.toNat : Int) + 1) :: strKey cs

theorem codes_str : Codes strLt strKey (fun _ => True) := by
  intro x y _ _ r s
  induction x generalizing y with
  | nil => 
    cases y with
    | nil => simp [strLt, strKey, ilex]
    | cons b bs => 
      simp [strLt, strKey, ilex]
      try (intro h; omega)
  | cons a as ih =>
    cases y with
    | nil => simp [strLt, strKey, ilex] <;> try omega
    | cons b bs =>
      have ih := ih bs
      simp only [strLt, strKey, List.cons_append, ilex]
      by_cases h1 : a.toNat < b.toNat
      · have : ((a.toNat : Int) + 1 < b.toNat + 1) := by omega
        simp [h1, this]
      · by_cases h2 : b.toNat < a.toNat
        · have h3 : ¬ ((a.toNat : Int) + 1 < b.toNat + 1) := by omega
          have h4 : ((b.toNat : Int) + 1 < a.toNat + 1) := by omega
          rw [if_neg h3, if_pos h4]
          simp [h1, h2]
        · have h3 : ¬ ((a.toNat : Int) + 1 < b.toNat + 1) := by omega
          have h4 : ¬ ((b.toNat : Int) + 1 < a.toNat + 1) := by omega
          rw [if_neg h3, if_neg h4]
          simp only [h1, h2, if_false]
          rw [ih]

def arrBody {α} (key : α → List Int) : List Bool → List α → List Int
  | k :: ks, x :: xs => (if k then 1 :: key x else [0]) ++ arrBody key ks xs
  | _, _ => []

def Arr.key {α} (key : α → List Int) (a : Arr α) : List Int :=
  (a.size : Int) :: arrBody key a.known a.contents

theorem codes_body {α} {lt : α → α → Bool} {key : α → List Int} {P : α → Prop}
    (hc : Codes lt key P) : ∀ (ka kb : List Bool) (xs ys : List α),
    xs.length = ka.length → ys.length = kb.length → ka.length = kb.length →
    (∀ x ∈ xs, P x) → (∀ y ∈ ys, P y) → ∀ r s,
    ilex (arrBody key ka xs ++ r) (arrBody key kb ys ++ s) =
      if arrLtLoop lt ka kb xs ys then true else if arrLtLoop lt kb ka ys xs then false else ilex r s
  | [], [], [], [], _, _, _, _, _, r, s => by simp [arrBody, arrLtLoop]
  | ka :: kas, kb :: kbs, x :: xs, y :: ys, h1, h2, h3, px, py, r, s => by
    have ih := codes_body hc kas kbs xs ys (by simpa using h1) (by simpa using h2) (by simpa using h3)
      (fun x hx => px x (by simp [hx])) (fun x hx => py x (by simp [hx])) r s
    have hxy := hc x y (px x (by simp)) (py y (by simp))
    cases ka <;> cases kb
    · simp only [arrBody, arrLtLoop, List.append_assoc]
      simpa [ilex] using ih
    · simp [arrBody, arrLtLoop, ilex]
    · simp [arrBody, arrLtLoop, ilex]
    · simp only [arrBody, arrLtLoop, List.append_assoc, if_true, List.cons_append, ilex]
      rw [if_neg (by omega), if_neg (by omega), hxy, ih]
      by_cases e1 : lt x y = true <;> by_cases e2 : lt y x = true <;> simp [e1, e2]
  | [], _ :: _, _, _, _, _, h, _, _, _, _ => by simp at h
  | _ :: _, [], _, _, _, _, h, _, _, _, _ => by simp at h
  | [], [], _ :: _, _, h, _, _, _, _, _, _ => by simp at h
  | [], [], [], _ :: _, _, h, _, _, _, _, _ => by simp at h
  | _ :: _, _ :: _, [], _, h, _, _, _, _, _, _ => by simp at h
  | _ :: _, _ :: _, _ :: _, [], _, h, _, _, _, _, _ => by simp at h

theorem codes_arr {α} {lt : α → α → Bool} {key : α → List Int} {P : α → Prop}
    (hc : Codes lt key P) :
    Codes (Arr.lt lt) (Arr.key key) (fun a => a.WF ∧ ∀ x ∈ a.contents, P x) := by
  intro x y hx hy r s
  simp only [Arr.key, List.cons_append, ilex, Arr.lt]
  by_cases h1 : x.size < y.size
  · have : (x.size : Int) < y.size := by omega
    simp [h1, this]
  · by_cases h2 : y.size < x.size
    · have h3 : ¬ (x.size : Int) < y.size := by omega
      have h4 : (y.size : Int) < x.size := by omega
      rw [if_neg h3, if_pos h4]; simp [h1, h2]
    · have h3 : ¬ (x.size : Int) < y.size := by omega
      have h4 : ¬ (y.size : Int) < x.size := by omega
      rw [if_neg h3, if_neg h4]
      simp only [h1, h2, if_false]
      exact codes_body hc _ _ _ _ hx.1 hy.1 (by unfold Arr.size at h1 h2; omega) hx.2 hy.2 r s

/-- The body of the key of a known value, without its class. -/
def Payload.bodyKey : Payload → List Int
  | .bool b => [if b then 1 else 0]
  | .int i => Dbl.key (.ofI32 i)
  | .real r => Dbl.key (.ofBits r)
  | .str s => strKey s
  | .nodeState x => [(x.toNat : Int)]
  | .outcome x => [(x.toNat : Int)]
  | .failure x => [(x.toNat : Int)]
  | .handle x => [(x.toNat : Int)]
  | .boolArr a => a.key (fun b => [if b then 1 else 0])
  | .intArr a => a.key (fun i => [i.toInt])
  | .realArr a => a.key (fun r => (Dbl.ofBits r).key)
  | .strArr a => a.key strKey

/-- Integer and Real are one class. -/
def Payload.cls : Payload → Int
  | .bool _ => 1 | .int _ => 2 | .real _ => 2 | .str _ => 4
  | .boolArr _ => 17 | .intArr _ => 18 | .realArr _ => 19 | .strArr _ => 20
  | .nodeState _ => 49 | .outcome _ => 50 | .failure _ => 51 | .handle _ => 52

def Value.key : Value → List Int
  | .unknown t => [0, (t.code : Int)]
  | .known p => 1 :: p.cls :: p.bodyKey

theorem VType.code_inj {a b : VType} (h : a.code = b.code) : a = b := by
  cases a <;> cases b <;> first | rfl | (simp [VType.code] at h)

theorem Codes.lt_iff {α} {lt : α → α → Bool} {key P} (h : Codes (α := α) lt key P) {x y} (hx : P x) (hy : P y) :
    lt x y = ilex (key x) (key y) := by
  have := h x y hx hy [] []
  have h2 := h y x hy hx [] []
  have h3 := h x x hx hx [] []
  simp only [List.append_nil] at this h2 h3
  rw [this]
  cases e : lt x y <;> cases e2 : lt y x <;> simp [ilex]

theorem mul1074_lt (a b : Int) : a * ((2 ^ 1074 : Nat) : Int) < b * ((2 ^ 1074 : Nat) : Int) ↔ a < b := by
  have h : (0 : Int) < ((2 ^ 1074 : Nat) : Int) := by
    have := Nat.two_pow_pos 1074
    omega
  constructor
  · intro hl; exact Int.lt_of_mul_lt_mul_right hl (Int.le_of_lt h)
  · intro hl; exact Int.mul_lt_mul_of_pos_right hl h

theorem i32Lt_eq (i j : I32) : i32Lt i j = Dbl.lt (.ofI32 i) (.ofI32 j) := by
  simp only [i32Lt, Dbl.ofI32, Dbl.lt, mul1074_lt]

theorem ofI32_ne_nan (i : I32) : Dbl.ofI32 i ≠ .nan := by simp [Dbl.ofI32]

theorem ilex_cons_same (a : Int) (r s : List Int) : ilex (a :: r) (a :: s) = ilex r s := by
  simp [ilex]

theorem ilex_single (a b : Nat) : ilex [(a : Int)] [(b : Int)] = decide (a < b) := by
  simp only [ilex]
  by_cases h : a < b
  · have : (a : Int) < b := by omega
    simp [h, this]
  · have : ¬ (a : Int) < b := by omega
    simp [h, this]

theorem lessThan_known (p q : Payload) (hp : p.noNaN ∧ p.wf) (hq : q.noNaN ∧ q.wf) :
    Value.lessThan (.known p) (.known q) = ilex (p.cls :: p.bodyKey) (q.cls :: q.bodyKey) := by
  cases p <;> cases q
  all_goals first
    | (refine Eq.trans ?_ (ilex_cons_same _ _ _).symm
       first
        | exact codes_bool.lt_iff trivial trivial
        | exact codes_str.lt_iff trivial trivial
        | exact (ilex_single _ _).symm
        | exact codes_f64.lt_iff hp.1 hq.1
        | exact (i32Lt_eq _ _).trans (codes_dbl.lt_iff (ofI32_ne_nan _) (ofI32_ne_nan _))
        | exact codes_dbl.lt_iff (ofI32_ne_nan _) hq.1
        | exact codes_dbl.lt_iff hp.1 (ofI32_ne_nan _)
        | exact (codes_arr codes_bool).lt_iff ⟨hp.2, fun _ _ => trivial⟩ ⟨hq.2, fun _ _ => trivial⟩
        | exact (codes_arr codes_i32).lt_iff ⟨hp.2, fun _ _ => trivial⟩ ⟨hq.2, fun _ _ => trivial⟩
        | exact (codes_arr codes_str).lt_iff ⟨hp.2, fun _ _ => trivial⟩ ⟨hq.2, fun _ _ => trivial⟩
        | exact (codes_arr codes_f64).lt_iff ⟨hp.2, hp.1⟩ ⟨hq.2, hq.1⟩)
    | (simp [Value.lessThan, Payload.cls, Payload.type, VType.code, ilex]; done)

theorem lessThan_eq_ilex (a b : Value) (ha : a.Ordinary) (hb : b.Ordinary) :
    a.lessThan b = ilex a.key b.key := by
  cases a with
  | unknown ta =>
    cases b with
    | unknown tb => cases ta <;> cases tb <;> rfl
    | known q => rfl
  | known p =>
    cases b with
    | unknown tb => rfl
    | known q => rw [Value.key, Value.key, ilex_cons_same]; exact lessThan_known p q ha hb

end Verif.Value
