import Verif.UpdateXml.Model
import Verif.Props.Command
/-
C149: an update says what the plan says.
-/
set_option autoImplicit false
set_option linter.unusedSimpArgs false
namespace Verif.UpdateXml
open Verif.Decl (Xml fromTag firstText)
open Verif.Command (Ex USt UEv UAlternating uRunning uAcks)

/-! ## Specification -/

/-- A `Pair` element: the name, an expression, and anything more. -/
structure IsPair (expr : Xml → Bool) (k : Xml) (name : String) (e : Xml) : Prop where
  shape : ∃ nameKids more, k = .elem "Pair" (.elem "Name" nameKids :: e :: more) ∧ firstText nameKids = name
  name : name ≠ ""
  expr : expr e = true

/-- The elements are these pairs. -/
inductive ArePairs (expr : Xml → Bool) : List Xml → List (String × Xml) → Prop
  | nil : ArePairs expr [] []
  | cons (k : Xml) (ks : List Xml) (n : String) (e : Xml) (ps : List (String × Xml)) : IsPair expr k n e → ArePairs expr ks ps → ArePairs expr (k :: ks) ((n, e) :: ps)

/-- An `Update` element with these pairs, all of different names. -/
def IsUpdate (expr : Xml → Bool) (x : Xml) (ps : List (String × Xml)) : Prop :=
  (∃ kids, x = .elem "Update" kids ∧ ArePairs expr kids ps) ∧ (ps.map Prod.fst).Nodup

/-! ## Proofs -/

private theorem checkPair_iff (expr : Xml → Bool) (k : Xml) : checkPair expr k = true ↔ ∃ n e, IsPair expr k n e := by
  constructor
  · intro h
    cases k with
    | text s => simp [checkPair, Xml.name] at h
    | elem t kids =>
      cases kids with
      | nil => simp [checkPair, Xml.kids] at h
      | cons a rest =>
        cases rest with
        | nil => simp [checkPair, Xml.kids] at h
        | cons e more =>
          cases a with
          | text s => simp [checkPair, Xml.kids, Xml.name] at h
          | elem t' nk =>
            simp only [checkPair, Xml.kids, Xml.name, Xml.childValue, Bool.and_eq_true, decide_eq_true_eq] at h
            obtain ⟨h0, ⟨h0', h1⟩, h2⟩ := h
            obtain rfl := of_decide_eq_true h0
            obtain rfl := of_decide_eq_true h0'
            exact ⟨_, e, ⟨nk, more, rfl, rfl⟩, of_decide_eq_true h1, h2⟩
  · rintro ⟨n, e, ⟨nk, more, rfl, h0⟩, h1, h2⟩
    simp [checkPair, Xml.kids, Xml.name, Xml.childValue, h0, h1, h2]

private theorem pair_name {expr : Xml → Bool} {k : Xml} {n : String} {e : Xml} (h : IsPair expr k n e) : k.childValueOf "Name" = n := by
  obtain ⟨nk, more, rfl, h0⟩ := h.shape
  simp [Xml.childValueOf, Xml.kids, fromTag, Xml.name, Xml.childValue, h0]

private theorem pair_unique {expr : Xml → Bool} {k : Xml} {n n' : String} {e e' : Xml} (h : IsPair expr k n e) (h' : IsPair expr k n' e') : n = n' ∧ e = e' := by
  obtain ⟨nk, more, rfl, rfl⟩ := h.shape
  obtain ⟨nk', more', h1, rfl⟩ := h'.shape
  simp only [Xml.elem.injEq, List.cons.injEq, true_and] at h1
  obtain ⟨rfl, rfl, _⟩ := h1
  exact ⟨rfl, rfl⟩

private theorem are_iff (expr : Xml → Bool) : ∀ kids : List Xml, kids.all (checkPair expr) = true ↔ ∃ ps, ArePairs expr kids ps
  | [] => by simp; exact ⟨[], .nil⟩
  | k :: ks => by
    rw [List.all_cons, Bool.and_eq_true, checkPair_iff, are_iff expr ks]
    constructor
    · rintro ⟨⟨n, e, h1⟩, ps, h2⟩; exact ⟨_, .cons _ _ _ _ _ h1 h2⟩
    · rintro ⟨ps, h⟩
      cases h with
      | cons _ _ n e ps h1 h2 => exact ⟨⟨n, e, h1⟩, ps, h2⟩

private theorem names_eq {expr : Xml → Bool} {ks : List Xml} {ps : List (String × Xml)} (h : ArePairs expr ks ps) : ps.map Prod.fst = ks.map (fun k => k.childValueOf "Name") := by
  induction h with
  | nil => rfl
  | cons k ks n e ps h1 _ ih => simp [ih, pair_name h1]

private theorem nodup_iff : ∀ ks : List Xml, noDuplicates ks = true ↔ (ks.map (fun k => k.childValueOf "Name")).Nodup
  | [] => by simp [noDuplicates]
  | k :: ks => by
    simp only [noDuplicates, Bool.and_eq_true, List.all_eq_true, decide_eq_true_eq, nodup_iff ks, List.map_cons, List.nodup_cons, List.mem_map, not_exists, not_and]
    constructor
    · rintro ⟨h1, h2⟩; exact ⟨fun x hx he => h1 x hx he.symm, h2⟩
    · rintro ⟨h1, h2⟩; exact ⟨fun x hx he => h1 x hx he.symm, h2⟩

/-- **C149, what is accepted**: an `Update` of pairs, each with a name that is not empty and an expression that is accepted, no two with the same name. -/
theorem c149_accepted (expr : Xml → Bool) (x : Xml) : checkUpdate expr x = true ↔ ∃ ps, IsUpdate expr x ps := by
  cases x with
  | text s => simp [checkUpdate, Xml.name, IsUpdate]
  | elem t kids =>
    simp only [checkUpdate, Xml.name, Xml.kids, Bool.and_eq_true, decide_eq_true_eq, are_iff, nodup_iff, IsUpdate, Xml.elem.injEq]
    constructor
    · rintro ⟨⟨h0, ps, h1⟩, h2⟩
      obtain rfl := of_decide_eq_true h0
      exact ⟨ps, ⟨kids, ⟨rfl, rfl⟩, h1⟩, by rw [names_eq h1]; exact h2⟩
    · rintro ⟨ps, ⟨_, ⟨rfl, rfl⟩, h1⟩, h2⟩
      exact ⟨⟨decide_eq_true rfl, ps, h1⟩, by rw [← names_eq h1]; exact h2⟩

section
variable {Env V : Type}

private theorem added_eq {expr : Xml → Bool} (create : Xml → Ex Env V) {kids : List Xml} {ps : List (String × Xml)} (h : ArePairs expr kids ps) :
    added create (.elem "Update" kids) = (ps.map (fun p => (p.1, create p.2))).reverse := by
  unfold added
  simp only [Xml.kids]
  rw [List.map_reverse]
  congr 1
  induction h with
  | nil => rfl
  | cons k ks n e ps h1 _ ih =>
    obtain ⟨nk, more, rfl, rfl⟩ := h1.shape
    simp [ih, pairOf, Xml.kids, Xml.childValue]

private theorem find_of_nodup {α : Type} : ∀ (l : List (String × α)), (l.map Prod.fst).Nodup → ∀ n a, (n, a) ∈ l → l.find? (fun p => p.1 == n) = some (n, a)
  | [], _, _, _, h => by simp at h
  | (m, b) :: l, hd, n, a, h => by
    simp only [List.map_cons, List.nodup_cons] at hd
    rcases List.mem_cons.1 h with h | h
    · cases h; simp
    · have : m ≠ n := by
        intro hm; subst hm
        exact hd.1 (List.mem_map.2 ⟨_, h, rfl⟩)
      rw [List.find?_cons_of_neg (by simpa using this)]
      exact find_of_nodup l hd.2 n a h

/-- **C149, the values**: while an update of an accepted plan is executed, after any history, the value under the name of each pair is what its expression was at the start, and there are no other names. -/
theorem c149_values (expr : Xml → Bool) (create : Xml → Ex Env V) (x : Xml) (ps : List (String × Xml)) (hx : IsUpdate expr x ps)
    (evs : List (UEv Env)) (ha : UAlternating false evs) :
    ∃ s, USt.run (added create x) evs = some s ∧ ∀ e l, uRunning evs = some (e, l) →
      (∀ n ex, (n, ex) ∈ ps → s.pairs.lookup n = some ((create ex).val e)) ∧ ∀ n, n ∉ ps.map Prod.fst → s.pairs.lookup n = none := by
  obtain ⟨⟨kids, rfl, hp⟩, hn⟩ := hx
  obtain ⟨s, h1, h2⟩ := Command.c84_update (V := V) (added create (.elem "Update" kids)) evs ha
  refine ⟨s, h1, fun e l hr => ?_⟩
  have h3 := (h2 e l hr).2
  rw [added_eq create hp] at h3
  have hn' : (((ps.map (fun p => (p.1, create p.2))).reverse).map Prod.fst).Nodup := by
    rw [List.map_reverse, List.map_map]
    exact List.pairwise_reverse.2 (hn.imp fun h => h.symm)
  constructor
  · intro n ex hm
    rw [h3, find_of_nodup _ hn' n (create ex) (by simp only [List.mem_reverse, List.mem_map]; exact ⟨(n, ex), hm, rfl⟩)]
    rfl
  · intro n hm
    rw [h3, Option.map_eq_none_iff, List.find?_eq_none]
    intro p hp2
    simp only [List.mem_reverse, List.mem_map] at hp2
    obtain ⟨q, hq, rfl⟩ := hp2
    simp only [beq_iff_eq]
    intro he; exact hm (List.mem_map.2 ⟨q, hq, he⟩)

/-- **C149, through IPC**: an update with a pair is published once, under the name of its node, with these values, and acknowledged: it is then complete. -/
theorem c149_sent_partial (expr : Xml → Bool) (create : Xml → Ex Env V) (x : Xml) (ps : List (String × Xml)) (hx : IsUpdate expr x ps) (hne : ps ≠ [])
    (evs : List (UEv Env)) (ha : UAlternating false evs) (e : Env) (l : List (UEv Env)) (hr : uRunning evs = some (e, l)) (node : String) :
    ∃ s s' sent, USt.run (added create x) evs = some s ∧ sendUpdate true node s = some ([(node, sent)], [true]) ∧
      (∀ n ex, (n, ex) ∈ ps → sent.lookup n = some ((create ex).val e)) ∧ (∀ n, n ∉ ps.map Prod.fst → sent.lookup n = none) ∧
      USt.run (added create x) (evs ++ [.ack true]) = some s' ∧ s'.ack = true := by
  obtain ⟨s, h1, h2⟩ := c149_values expr create x ps hx evs ha
  obtain ⟨h3, h4⟩ := h2 e l hr
  obtain ⟨⟨n, ex⟩, ps', rfl⟩ := List.exists_cons_of_ne_nil hne
  have hp : s.pairs.isEmpty = false := by
    have := h3 n ex (by simp)
    cases hs : s.pairs with
    | nil => rw [hs] at this; simp at this
    | cons a b => rfl
  have hal : UAlternating false (evs ++ [.ack true]) := by
    have : ∀ (b : Bool) (l : List (UEv Env)), UAlternating b l → UAlternating b (l ++ [.ack true]) := by
      intro b l
      induction l generalizing b with
      | nil => intro _; cases b <;> simp [UAlternating]
      | cons a l ih =>
        intro h
        cases b <;> cases a <;> simp only [UAlternating, List.cons_append] at h ⊢ <;> first | exact h.elim | exact ih _ h
    exact this _ _ ha
  obtain ⟨s', h5, h6⟩ := Command.c84_update (V := V) (added create x) _ hal
  have hr' : uRunning (evs ++ [.ack true]) = some (e, l ++ [.ack true]) := by
    unfold uRunning at hr ⊢
    rw [List.foldl_append, hr]; rfl
  refine ⟨s, s', s.pairs, h1, by simp [sendUpdate, hp], h3, h4, h5, (h6 _ _ hr').1.2 (by simp [uAcks])⟩

/-- **C149 is false** of an update without pairs: it is accepted, but nothing is published, nothing acknowledged, and it never completes, whatever happens, as long as nobody else acknowledges it. -/
theorem c149_empty_refuted (expr : Xml → Bool) (create : Xml → Ex Env V) (evs : List (UEv Env)) (ha : UAlternating false evs) (hn : ∀ b, .ack b ∉ evs) :
    checkUpdate expr (.elem "Update" []) = true ∧ ∃ s, USt.run (added create (.elem "Update" [])) evs = some s ∧ s.ack = false ∧ ∀ ok node, sendUpdate ok node s = some ([], []) := by
  refine ⟨by simp [checkUpdate, Xml.name, Xml.kids, noDuplicates], ?_⟩
  obtain ⟨s, h1, _⟩ := Command.c84_update (V := V) (added create (.elem "Update" [])) evs ha
  have key : ∀ (evs : List (UEv Env)) (s s' : USt V), (∀ b, UEv.ack b ∉ evs) → evs.foldlM (USt.step (added create (.elem "Update" []))) s = some s' → s.ack = false → s.pairs = [] → s'.ack = false ∧ s'.pairs = [] := by
    intro evs
    induction evs with
    | nil => intro s s' _ h h1 h2; cases h; exact ⟨h1, h2⟩
    | cons a evs ih =>
      intro s s' hn h h1 h2
      rw [List.foldlM_cons] at h
      obtain ⟨t, ht, h⟩ := Option.bind_eq_some_iff.1 h
      refine ih t s' (fun b hb => hn b (by simp [hb])) h ?_ ?_
      all_goals
        cases a with
        | start e => cases ht; simp [USt.fix, USt.activate, added, Xml.kids, Command.linked, h1, h2]
        | ack b => exact absurd (by simp) (hn b)
        | fail =>
          simp only [USt.step] at ht
          obtain ⟨u, hu, ht⟩ := Option.bind_eq_some_iff.1 ht
          cases ht
          unfold USt.deactivate at hu
          split at hu
          · cases hu
          · cases hu; simp [USt.activate, h1, h2]
        | leave =>
          simp only [USt.step] at ht
          obtain ⟨u, hu, ht⟩ := Option.bind_eq_some_iff.1 ht
          unfold USt.deactivate at hu ht
          split at hu
          · cases hu
          · cases hu
            split at ht
            · cases ht
            · cases ht; simp [h1, h2]
  obtain ⟨k1, k2⟩ := key evs {} s hn h1 rfl rfl
  exact ⟨s, h1, k1, fun ok node => by simp [sendUpdate, k2]⟩
end

/-- An update with two pairs. -/
def exXml : Xml := .elem "Update" [.elem "Pair" [.elem "Name" [.text "x"], .elem "IntegerValue" [.text "1"]], .elem "Pair" [.elem "Name" [.text "y"], .elem "Arg" []]]

/-- It is accepted; with the same name twice it would not be. -/
example : checkUpdate (fun _ => true) exXml = true ∧ IsUpdate (fun _ => true) exXml [("x", .elem "IntegerValue" [.text "1"]), ("y", .elem "Arg" [])] ∧
    checkUpdate (fun _ => true) (.elem "Update" [.elem "Pair" [.elem "Name" [.text "x"], .elem "A" []], .elem "Pair" [.elem "Name" [.text "x"], .elem "B" []]]) = false := by
  refine ⟨by simp [checkUpdate, exXml, checkPair, noDuplicates, Xml.name, Xml.kids, Xml.childValue, Xml.childValueOf, fromTag, firstText], ⟨⟨_, rfl, ?_⟩, by decide⟩,
    by simp [checkUpdate, checkPair, noDuplicates, Xml.name, Xml.kids, Xml.childValue, Xml.childValueOf, fromTag, firstText]⟩
  exact .cons _ _ _ _ _ ⟨⟨_, _, rfl, rfl⟩, by decide, rfl⟩ (.cons _ _ _ _ _ ⟨⟨_, _, rfl, rfl⟩, by decide, rfl⟩ .nil)

/-- A history while it is executed. -/
example : UAlternating (Env := Nat) false [.start 1, .leave, .start 2] ∧ uRunning (Env := Nat) [.start 1, .leave, .start 2] = some (2, []) := ⟨by simp [UAlternating], rfl⟩

end Verif.UpdateXml
