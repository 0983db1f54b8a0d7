import Verif.Luv.Model
import Verif.Props.Text
/-
C131, C132: the viewer.
-/
set_option autoImplicit false
namespace Verif.Luv
open Verif.Text

/-- A text without markup in it, and without the character that ends a message. -/
def PlainText (s : List Char) : Prop := '<' ∉ s ∧ eom ∉ s

/-- A notification whose texts have no markup in them. The XML of a plan may have it: it is a `PlexilPlan` element; only it must not have the character that ends a message in it. -/
def Note.Plain : Note → Prop
  | .transition _ i => (∀ c ∈ i.conds, PlainText c.1.toList ∧ '>' ∉ c.1.toList ∧ c.1.toList.head? ≠ some '/' ∧ PlainText c.2) ∧ ∀ n ∈ i.path, PlainText n
  | .assignment n v => PlainText n ∧ PlainText v
  | .plan x => eom ∉ x ∧ "<PlexilPlan".toList <+: x
  | .library x => eom ∉ x

/-! ### Unique reading -/

theorem split_at {x : Char} : ∀ {a b r r' : List Char}, x ∉ a → x ∉ b → a ++ x :: r = b ++ x :: r' → a = b ∧ r = r'
  | [], [], _, _, _, _, h => by injection h with _ h; exact ⟨rfl, h⟩
  | [], c :: b, _, _, _, hb, h => by
    injection h with h _; exact absurd (by rw [h]; simp) hb
  | c :: a, [], _, _, ha, _, h => by
    injection h with h _; exact absurd (by rw [h]; simp) ha
  | c :: a, d :: b, r, r', ha, hb, h => by
    injection h with h1 h2
    obtain ⟨rfl, h⟩ := split_at (fun h => ha (by simp [h])) (fun h => hb (by simp [h])) h2
    exact ⟨by rw [h1], h⟩

theorem element_append (t : String) (s r : List Char) : element t s ++ r = '<' :: t.toList ++ '>' :: (s ++ '<' :: '/' :: t.toList ++ '>' :: r) := by
  simp [element]

/-- Elements with the same text have the same tag. -/
theorem tag_eq {t t' : String} {s s' r r' : List Char} (ht : '>' ∉ t.toList) (ht' : '>' ∉ t'.toList) (h : element t s ++ r = element t' s' ++ r') : t = t' := by
  rw [element_append, element_append] at h
  injection h with _ h
  exact String.toList_injective (split_at ht ht' h).1

/-- Elements with texts without markup: the text and what follows are the same. -/
theorem leaf_eq {t : String} {s s' r r' : List Char} (hs : '<' ∉ s) (hs' : '<' ∉ s') (h : element t s ++ r = element t s' ++ r') : s = s' ∧ r = r' := by
  rw [element_append, element_append, List.cons_append, List.cons_append] at h
  injection h with _ h
  have h := List.append_cancel_left h
  injection h with _ h
  rw [List.append_assoc, List.append_assoc] at h
  obtain ⟨h1, h⟩ := split_at hs hs' h
  injection h with _ h
  have h := List.append_cancel_left h
  injection h with _ h
  exact ⟨h1, h⟩

/-- It does not begin with an element: it begins with an end tag. -/
def Ends (r : List Char) : Prop := ∃ q, r = '<' :: '/' :: q

theorem not_ends {t : String} {s r : List Char} (ht : t.toList.head? ≠ some '/') : ¬ Ends (element t s ++ r) := by
  rintro ⟨q, h⟩
  rw [element_append, List.cons_append] at h
  injection h with _ h
  cases htl : t.toList with
  | nil => rw [htl] at h; injection h with h _; exact absurd h (by decide)
  | cons c l =>
    rw [htl] at h ht
    injection h with h _
    exact ht (by simp [h])

/-- Lists of elements with texts. -/
theorem leaves_eq : ∀ {l l' : List (String × List Char)} {r r' : List Char},
    (∀ c ∈ l, '>' ∉ c.1.toList ∧ c.1.toList.head? ≠ some '/' ∧ '<' ∉ c.2) → (∀ c ∈ l', '>' ∉ c.1.toList ∧ c.1.toList.head? ≠ some '/' ∧ '<' ∉ c.2) → Ends r → Ends r' →
    (l.flatMap fun c => element c.1 c.2) ++ r = (l'.flatMap fun c => element c.1 c.2) ++ r' → l = l' ∧ r = r'
  | [], [], _, _, _, _, _, _, h => ⟨rfl, by simpa using h⟩
  | [], c :: l', r, r', _, h2, h3, _, h => by
    simp only [List.flatMap_nil, List.nil_append, List.flatMap_cons, List.append_assoc] at h
    rw [h] at h3
    exact absurd h3 (not_ends (h2 c (by simp)).2.1)
  | c :: l, [], r, r', h1, _, _, h4, h => by
    simp only [List.flatMap_nil, List.nil_append, List.flatMap_cons, List.append_assoc] at h
    rw [← h] at h4
    exact absurd h4 (not_ends (h1 c (by simp)).2.1)
  | (t, s) :: l, (t', s') :: l', r, r', h1, h2, h3, h4, h => by
    simp only [List.flatMap_cons, List.append_assoc] at h
    have ht := tag_eq (h1 (t, s) (by simp)).1 (h2 (t', s') (by simp)).1 h
    simp only at ht
    subst ht
    obtain ⟨hs, h'⟩ := leaf_eq (h1 (t, s) (by simp)).2.2 (h2 (t, s') (by simp)).2.2 h
    simp only at hs
    subst hs
    obtain ⟨hl, hr⟩ := leaves_eq (fun c hc => h1 c (List.mem_cons_of_mem _ hc)) (fun c hc => h2 c (List.mem_cons_of_mem _ hc)) h3 h4 h'
    exact ⟨by rw [hl], hr⟩

/-- Elements with elements in them. -/
theorem group_eq {t : String} {l l' : List (String × List Char)} {r r' : List Char}
    (h1 : ∀ c ∈ l, '>' ∉ c.1.toList ∧ c.1.toList.head? ≠ some '/' ∧ '<' ∉ c.2) (h2 : ∀ c ∈ l', '>' ∉ c.1.toList ∧ c.1.toList.head? ≠ some '/' ∧ '<' ∉ c.2)
    (h : element t (l.flatMap fun c => element c.1 c.2) ++ r = element t (l'.flatMap fun c => element c.1 c.2) ++ r') : l = l' ∧ r = r' := by
  rw [element_append, element_append, List.cons_append, List.cons_append] at h
  injection h with _ h
  have h := List.append_cancel_left h
  injection h with _ h
  rw [List.append_assoc, List.append_assoc] at h
  obtain ⟨hl, h⟩ := leaves_eq h1 h2 ⟨_, rfl⟩ ⟨_, rfl⟩ h
  injection h with _ h
  injection h with _ h
  have h := List.append_cancel_left h
  injection h with _ h
  exact ⟨hl, h⟩

theorem element_inj {t : String} {s s' : List Char} (h : element t s = element t s') : s = s' := by
  have h' : element t s ++ [] = element t s' ++ [] := by rw [h]
  rw [element_append, element_append] at h'
  have h2 := List.append_cancel_left h'
  injection h2 with _ h2
  rw [List.append_assoc, List.append_assoc] at h2
  exact List.append_cancel_right h2

theorem stateName_plain (x : NState) : PlainText (stateName x).toList := by cases x <;> exact ⟨by decide, by decide⟩
theorem outcomeName_plain (x : Outcome) : PlainText (outcomeName x).toList := by cases x <;> exact ⟨by decide, by decide⟩
theorem failureName_plain (x : Failure) : PlainText (failureName x).toList := by cases x <;> exact ⟨by decide, by decide⟩

theorem stateName_inj {x y : NState} (h : (stateName x).toList = (stateName y).toList) : x = y := by
  revert h; cases x <;> cases y <;> decide
theorem outcomeName_inj {x y : Outcome} (h : (outcomeName x).toList = (outcomeName y).toList) : x = y := by
  revert h; cases x <;> cases y <;> decide
theorem failureName_inj {x y : Failure} (h : (failureName x).toList = (failureName y).toList) : x = y := by
  revert h; cases x <;> cases y <;> decide

/-- An element that may be missing. -/
theorem opt_eq {α : Type} {none : α} [DecidableEq α] {t t' : String} {f : α → List Char} (hf : ∀ a, '<' ∉ f a) (hi : ∀ a b, f a = f b → a = b) (ht : '>' ∉ t.toList) (ht' : '>' ∉ t'.toList) (hn : t ≠ t')
    {a b : α} {s s' r r' : List Char} (h : (if a = none then [] else element t (f a)) ++ (element t' s ++ r) = (if b = none then [] else element t (f b)) ++ (element t' s' ++ r')) :
    a = b ∧ element t' s ++ r = element t' s' ++ r' := by
  by_cases ha : a = none <;> by_cases hb : b = none
  · rw [if_pos ha, if_pos hb] at h; exact ⟨ha.trans hb.symm, h⟩
  · rw [if_pos ha, if_neg hb, List.nil_append] at h; exact absurd (tag_eq ht' ht h).symm hn
  · rw [if_neg ha, if_pos hb, List.nil_append] at h; exact absurd (tag_eq ht ht' h) hn
  · rw [if_neg ha, if_neg hb] at h
    obtain ⟨h1, h2⟩ := leaf_eq (hf a) (hf b) h
    exact ⟨hi a b h1, h2⟩

/-- The same, if the element after it may be missing too. -/
theorem opt_eq2 {α β : Type} {none : α} {none' : β} [DecidableEq α] [DecidableEq β] {t u t' : String} {f : α → List Char} {g : β → List Char} (hf : ∀ a, '<' ∉ f a) (hi : ∀ a b, f a = f b → a = b)
    (ht : '>' ∉ t.toList) (hu : '>' ∉ u.toList) (ht' : '>' ∉ t'.toList) (hn : t ≠ t') (hnu : t ≠ u)
    {a b : α} {x y : β} {s s' r r' : List Char}
    (h : (if a = none then [] else element t (f a)) ++ ((if x = none' then [] else element u (g x)) ++ (element t' s ++ r)) =
      (if b = none then [] else element t (f b)) ++ ((if y = none' then [] else element u (g y)) ++ (element t' s' ++ r'))) :
    a = b ∧ (if x = none' then [] else element u (g x)) ++ (element t' s ++ r) = (if y = none' then [] else element u (g y)) ++ (element t' s' ++ r') := by
  have key : ∀ (x : β) (s r : List Char), ∃ v w q, (v = u ∨ v = t') ∧ (if x = none' then [] else element u (g x)) ++ (element t' s ++ r) = element v w ++ q := by
    intro x s r
    by_cases hx : x = none'
    · rw [if_pos hx]; exact ⟨t', s, r, .inr rfl, rfl⟩
    · rw [if_neg hx]; exact ⟨u, g x, _, .inl rfl, rfl⟩
  obtain ⟨v, w, q, hv, e⟩ := key x s r
  obtain ⟨v', w', q', hv', e'⟩ := key y s' r'
  have hvt : '>' ∉ v.toList := by rcases hv with rfl | rfl <;> assumption
  have hvt' : '>' ∉ v'.toList := by rcases hv' with rfl | rfl <;> assumption
  have n1 : t ≠ v := by rcases hv with rfl | rfl <;> assumption
  have n2 : t ≠ v' := by rcases hv' with rfl | rfl <;> assumption
  by_cases ha : a = none <;> by_cases hb : b = none
  · rw [if_pos ha, if_pos hb] at h; exact ⟨ha.trans hb.symm, h⟩
  · rw [if_pos ha, if_neg hb, List.nil_append, e] at h; exact absurd (tag_eq hvt ht h).symm n1
  · rw [if_neg ha, if_pos hb, List.nil_append, e'] at h; exact absurd (tag_eq ht hvt' h) n2
  · rw [if_neg ha, if_neg hb] at h
    obtain ⟨h1, h2⟩ := leaf_eq (hf a) (hf b) h
    exact ⟨hi a b h1, h2⟩

theorem path_as_leaves (p : List (List Char)) : (p.flatMap fun n => element "NodeId" n) = (p.map fun n => ("NodeId", n)).flatMap fun c => element c.1 c.2 := by
  induction p with
  | nil => rfl
  | cons n p ih => simp [ih]

theorem transition_inj {s s' : NState} {i i' : Info} (h1 : (Note.transition s i).Plain) (h2 : (Note.transition s' i').Plain) (h : formatTransition s i = formatTransition s' i') :
    s = s' ∧ i = i' := by
  have h := element_inj h
  simp only [List.append_assoc] at h
  obtain ⟨hs, h⟩ := leaf_eq (stateName_plain s).1 (stateName_plain s').1 h
  have d1 : '>' ∉ "NodeOutcome".toList := by decide
  have d2 : '>' ∉ "NodeFailureType".toList := by decide
  have d3 : '>' ∉ "Conditions".toList := by decide
  have d4 : "NodeOutcome" ≠ "Conditions" := by decide
  have d5 : "NodeOutcome" ≠ "NodeFailureType" := by decide
  have d6 : "NodeFailureType" ≠ "Conditions" := by decide
  generalize "NodeOutcome" = t1 at h d1 d4 d5
  generalize "NodeFailureType" = t2 at h d2 d5 d6
  generalize ht3 : "Conditions" = t3 at h d3 d4 d6
  obtain ⟨ho, h⟩ := opt_eq2 (f := fun o => (outcomeName o).toList) (g := fun o => (failureName o).toList) (fun o => (outcomeName_plain o).1) (fun _ _ => outcomeName_inj) d1 d2 d3 d4 d5 h
  obtain ⟨hf, h⟩ := opt_eq (f := fun o => (failureName o).toList) (fun o => (failureName_plain o).1) (fun _ _ => failureName_inj) d2 d3 d6 h
  obtain ⟨hc, h⟩ := group_eq (fun c hc => ⟨(h1.1 c hc).2.1, (h1.1 c hc).2.2.1, (h1.1 c hc).2.2.2.1⟩) (fun c hc => ⟨(h2.1 c hc).2.1, (h2.1 c hc).2.2.1, (h2.1 c hc).2.2.2.1⟩) h
  rw [path_as_leaves, path_as_leaves] at h
  have ni : '>' ∉ "NodeId".toList ∧ "NodeId".toList.head? ≠ some '/' := by decide
  have hp := group_eq (l := i.path.map fun n => ("NodeId", n)) (l' := i'.path.map fun n => ("NodeId", n)) (r := []) (r' := []) (by
    intro c hc
    obtain ⟨n, hn, rfl⟩ := List.mem_map.mp hc
    exact ⟨ni.1, ni.2, (h1.2 n hn).1⟩) (by
    intro c hc
    obtain ⟨n, hn, rfl⟩ := List.mem_map.mp hc
    exact ⟨ni.1, ni.2, (h2.2 n hn).1⟩) (by rw [List.append_nil, List.append_nil]; exact h)
  have hp' : i.path = i'.path := by
    have := congrArg (List.map Prod.snd) hp.1
    simpa [Function.comp_def] using this
  obtain ⟨a, b, c, d⟩ := i
  obtain ⟨a', b', c', d'⟩ := i'
  simp only at ho hf hc hp'
  subst ho hf hc hp'
  exact ⟨stateName_inj hs, rfl⟩

theorem assignment_inj {n n' v v' : List Char} (h1 : (Note.assignment n v).Plain) (h2 : (Note.assignment n' v').Plain) (h : formatAssignment n v = formatAssignment n' v') : n = n' ∧ v = v' := by
  have h := element_inj h
  have e : ∀ n : List Char, element "VariableName" n = [("VariableName", n)].flatMap fun c => element c.1 c.2 := by intro n; simp
  rw [e n, e n'] at h
  have vn : '>' ∉ "VariableName".toList ∧ "VariableName".toList.head? ≠ some '/' := by decide
  obtain ⟨hn, h⟩ := group_eq (by intro c hc; rw [List.mem_singleton] at hc; subst hc; exact ⟨vn.1, vn.2, h1.1.1⟩)
    (by intro c hc; rw [List.mem_singleton] at hc; subst hc; exact ⟨vn.1, vn.2, h2.1.1⟩) h
  injection hn with hn _
  injection hn with _ hn
  exact ⟨hn, element_inj h⟩

/-! ### No message has the character in it that ends messages -/

theorem element_eom {t : String} {s : List Char} (ht : eom ∉ t.toList) (hs : eom ∉ s) : eom ∉ element t s := by
  have e1 : eom ≠ '<' := by decide
  have e2 : eom ≠ '>' := by decide
  have e3 : eom ≠ '/' := by decide
  simp [element, ht, hs, e1, e2, e3]

theorem append_eom {a b : List Char} (h1 : eom ∉ a) (h2 : eom ∉ b) : eom ∉ a ++ b := by
  intro h
  rcases List.mem_append.mp h with h | h
  · exact h1 h
  · exact h2 h

theorem flatMap_eom {α : Type} {l : List α} {f : α → List Char} (h : ∀ a ∈ l, eom ∉ f a) : eom ∉ l.flatMap f := by
  intro hm
  obtain ⟨a, ha, hx⟩ := List.mem_flatMap.mp hm
  exact h a ha hx

theorem messages_eom {b : Bool} {n : Note} (h : n.Plain) : ∀ m ∈ n.messages b, eom ∉ m := by
  have info : eom ∉ formatPlanInfo b := element_eom (by decide) (element_eom (by decide) (by cases b <;> decide))
  cases n with
  | transition s i =>
    intro m hm
    rw [Note.messages, List.mem_singleton] at hm
    subst hm
    refine element_eom (by decide) (append_eom (append_eom (append_eom (append_eom (element_eom (by decide) (stateName_plain s).2) ?_) ?_) ?_) ?_)
    · split
      · simp
      · exact element_eom (by decide) (outcomeName_plain _).2
    · split
      · simp
      · exact element_eom (by decide) (failureName_plain _).2
    · exact element_eom (by decide) (flatMap_eom fun c hc => element_eom (h.1 c hc).1.2 (h.1 c hc).2.2.2.2)
    · exact element_eom (by decide) (flatMap_eom fun c hc => element_eom (by decide) (h.2 c hc).2)
  | assignment n v =>
    intro m hm
    rw [Note.messages, List.mem_singleton] at hm
    subst hm
    exact element_eom (by decide) (append_eom (element_eom (by decide) (element_eom (by decide) h.1.2)) (element_eom (by decide) h.2.2))
  | plan x =>
    intro m hm
    rw [Note.messages, List.mem_cons, List.mem_singleton] at hm
    rcases hm with rfl | rfl
    · exact info
    · exact h.1
  | library x =>
    intro m hm
    rw [Note.messages, List.mem_cons, List.mem_singleton] at hm
    rcases hm with rfl | rfl
    · exact info
    · exact element_eom (by decide) h

theorem split_messages : ∀ {l l' : List (List Char)}, (∀ m ∈ l, eom ∉ m) → (∀ m ∈ l', eom ∉ m) → (l.flatMap fun m => m ++ [eom]) = (l'.flatMap fun m => m ++ [eom]) → l = l'
  | [], [], _, _, _ => rfl
  | [], m :: l', _, _, h => by simp at h
  | m :: l, [], _, _, h => by simp at h
  | m :: l, m' :: l', h1, h2, h => by
    simp only [List.flatMap_cons, List.append_assoc, List.singleton_append] at h
    obtain ⟨hm, h'⟩ := split_at (h1 m (by simp)) (h2 m' (by simp)) h
    rw [split_messages (fun x hx => h1 x (List.mem_cons_of_mem _ hx)) (fun x hx => h2 x (List.mem_cons_of_mem _ hx)) h', hm]

/-! ### Kinds of messages -/

/-- The first two characters. -/
theorem take_element (t : String) (s : List Char) (k : Nat) (hk : k ≤ t.toList.length) : (element t s).take (k + 1) = '<' :: t.toList.take k := by
  have e : element t s = '<' :: (t.toList ++ ('>' :: (s ++ ('<' :: '/' :: (t.toList ++ ['>']))))) := by simp [element]
  rw [e, List.take_succ_cons, List.take_append_of_le_length hk]

theorem notes_inj (b : Bool) : ∀ {ns ns' : List Note}, (∀ n ∈ ns, n.Plain) → (∀ n ∈ ns', n.Plain) → ns.flatMap (Note.messages b) = ns'.flatMap (Note.messages b) → ns = ns'
  | [], [], _, _, _ => rfl
  | [], n :: ns', _, _, h => by cases n <;> simp [Note.messages] at h
  | n :: ns, [], _, _, h => by cases n <;> simp [Note.messages] at h
  | n :: ns, n' :: ns', h1, h2, h => by
    have p := h1 n (by simp)
    have p' := h2 n' (by simp)
    have ih := fun h => notes_inj b (ns := ns) (ns' := ns') (fun x hx => h1 x (by simp [hx])) (fun x hx => h2 x (by simp [hx])) h
    have kind : ∀ {t t' : String} {s s' : List Char}, element t s = element t' s' → 1 ≤ t.toList.length → 1 ≤ t'.toList.length → t.toList.take 1 = t'.toList.take 1 := by
      intro t t' s s' h g g'
      have := congrArg (List.take 2) h
      rw [take_element t s 1 g, take_element t' s' 1 g'] at this
      injection this
    cases n <;> cases n' <;> simp only [Note.messages, List.flatMap_cons, List.cons_append, List.nil_append] at h <;> injection h with g h
    · obtain ⟨rfl, rfl⟩ := transition_inj p p' g
      rw [ih h]
    · exact absurd (kind g (by decide) (by decide)) (by decide)
    · exact absurd (kind g (by decide) (by decide)) (by decide)
    · exact absurd (kind g (by decide) (by decide)) (by decide)
    · exact absurd (kind g (by decide) (by decide)) (by decide)
    · obtain ⟨rfl, rfl⟩ := assignment_inj p p' g
      rw [ih h]
    · exact absurd (kind g (by decide) (by decide)) (by decide)
    · exact absurd (kind g (by decide) (by decide)) (by decide)
    · exact absurd (kind g (by decide) (by decide)) (by decide)
    · exact absurd (kind g (by decide) (by decide)) (by decide)
    · injection h with g h
      subst g
      rw [ih h]
    · injection h with g h
      exfalso
      subst g
      obtain ⟨q, hq⟩ := p.2
      have := congrArg (List.take 11) hq
      rw [formatLibrary, take_element _ _ 10 (by decide)] at this
      rw [List.take_append_of_le_length (by decide)] at this
      exact absurd this (by decide)
    · exact absurd (kind g (by decide) (by decide)) (by decide)
    · exact absurd (kind g (by decide) (by decide)) (by decide)
    · injection h with g h
      exfalso
      subst g
      obtain ⟨q, hq⟩ := p'.2
      have := congrArg (List.take 11) hq
      rw [formatLibrary, take_element _ _ 10 (by decide)] at this
      rw [List.take_append_of_le_length (by decide)] at this
      exact absurd this (by decide)
    · injection h with g h
      rw [element_inj g, ih h]

/-- **C131.** Provided no text has markup in it: from what is written to the socket the notifications can be told, all of them and in their order, with new state, outcome, failure type, values of the conditions,
path, name and value. -/
theorem c131_readable (b : Bool) {ns ns' : List Note} (h1 : ∀ n ∈ ns, n.Plain) (h2 : ∀ n ∈ ns', n.Plain) (h : stream b ns = stream b ns') : ns = ns' := by
  refine notes_inj b h1 h2 (split_messages ?_ ?_ h)
  · intro m hm
    obtain ⟨n, hn, hm⟩ := List.mem_flatMap.mp hm
    exact messages_eom (h1 n hn) m hm
  · intro m hm
    obtain ⟨n, hn, hm⟩ := List.mem_flatMap.mp hm
    exact messages_eom (h2 n hn) m hm

/-- **C131 is false of values with markup in them**: nothing is escaped. For every two assignments there is a string such that assigning it writes exactly what the two assignments would write. -/
theorem c131_markup_refuted (b : Bool) (x v y w : List Char) : ∃ s, stream b [.assignment x s] = stream b [.assignment x v, .assignment y w] := by
  refine ⟨v ++ '<' :: '/' :: "Value".toList ++ '>' :: '<' :: '/' :: "Assignment".toList ++ '>' :: eom :: '<' :: "Assignment".toList ++ '>' :: element "Variable" (element "VariableName" y) ++
    '<' :: "Value".toList ++ '>' :: w, ?_⟩
  simp only [stream, Note.messages, formatAssignment, List.flatMap_cons, List.flatMap_nil, List.append_nil, List.cons_append, List.nil_append]
  generalize "Assignment" = t1
  generalize "Value" = t2
  generalize element "Variable" (element "VariableName" y) = e1
  generalize element "Variable" (element "VariableName" x) = e2
  simp [element]

/-! ### What a message says -/

variable {N : Type} [DecidableEq N]

/-- Once a node does not change any more before the step is complete, its messages say what it looks like then. -/
theorem kept_step (h : Hub N) (es : List (Ev N)) (hc : ∀ e ∈ es, e ≠ .complete) : ∃ more, (es.foldl Hub.step h).kept = h.kept ++ more ∧ (es.foldl Hub.step h).notes = h.notes := by
  induction es generalizing h with
  | nil => exact ⟨[], by simp, rfl⟩
  | cons e es ih =>
    obtain ⟨more, h1, h2⟩ := ih (h.step e) (fun x hx => hc x (by simp [hx]))
    cases e with
    | transition n s i => exact ⟨(n, s) :: more, by rw [List.foldl_cons, h1]; simp [Hub.step], h2⟩
    | looks n i => exact ⟨more, h1, h2⟩
    | complete => exact absurd rfl (hc .complete (by simp))

theorem look_step (h : Hub N) (es : List (Ev N)) (n : N) (hn : ∀ s i, Ev.transition n s i ∉ es ∧ Ev.looks n i ∉ es) : (es.foldl Hub.step h).look n = h.look n := by
  induction es generalizing h with
  | nil => rfl
  | cons e es ih =>
    rw [List.foldl_cons, ih (h.step e) (fun s i => ⟨fun hm => (hn s i).1 (by simp [hm]), fun hm => (hn s i).2 (by simp [hm])⟩)]
    cases e with
    | transition m s i =>
      have : n ≠ m := by rintro rfl; exact (hn s i).1 (by simp)
      simp [Hub.step, this]
    | looks m i =>
      have : n ≠ m := by rintro rfl; exact (hn .none i).2 (by simp)
      simp [Hub.step, this]
    | complete => rfl

/-- **C131.** If a node changes no more in the step after a transition, the message for the transition says what the node was like after it. -/
theorem c131_says (h : Hub N) (pre post : List (Ev N)) (n : N) (s : NState) (i : Info) (h1 : ∀ e ∈ pre ++ post, e ≠ .complete) (h2 : ∀ s i, Ev.transition n s i ∉ post ∧ Ev.looks n i ∉ post) :
    Note.transition s i ∈ ((pre ++ Ev.transition n s i :: post ++ [Ev.complete]).foldl Hub.step h).notes := by
  rw [List.foldl_append, List.foldl_append, List.foldl_cons, List.foldl_cons, List.foldl_nil]
  generalize hg : pre.foldl Hub.step h = g
  obtain ⟨more, k1, k2⟩ := kept_step (g.step (.transition n s i)) post (fun e he => h1 e (by simp [he]))
  have k3 := look_step (g.step (.transition n s i)) post n h2
  have k4 : (g.step (.transition n s i)).look n = i := by simp [Hub.step]
  generalize hf : post.foldl Hub.step (g.step (.transition n s i)) = f at k1 k2 k3
  simp only [Hub.step, List.mem_append, List.mem_map]
  right
  refine ⟨(n, s), ?_, ?_⟩
  · rw [k1]; simp [Hub.step]
  · simp only [k3, k4]

/-- The transitions that happened: path of the node and new state, in order. -/
def happened (path : N → List (List Char)) (es : List (Ev N)) : List (List (List Char) × NState) :=
  es.filterMap fun | .transition n s _ => some (path n, s) | _ => none

/-- What the messages say of path and new state. -/
def told (ns : List Note) : List (List (List Char) × NState) := ns.filterMap fun | .transition s i => some (i.path, s) | _ => none

theorem told_kept (path : N → List (List Char)) (look : N → Info) (hl : ∀ n, (look n).path = path n) (k : List (N × NState)) :
    told (k.map fun t => .transition t.2 (look t.1)) = k.map fun t => (path t.1, t.2) := by
  induction k with
  | nil => rfl
  | cons t k ih => simp only [told, List.map_cons, List.filterMap_cons] at ih ⊢; rw [ih, hl]

theorem once_step (path : N → List (List Char)) (h : Hub N) (es : List (Ev N)) (hl : ∀ n, (h.look n).path = path n)
    (hp : ∀ n s i, Ev.transition n s i ∈ es ∨ Ev.looks n i ∈ es → i.path = path n) :
    (∀ n, ((es.foldl Hub.step h).look n).path = path n) ∧
    told (es.foldl Hub.step h).notes ++ (es.foldl Hub.step h).kept.map (fun t => (path t.1, t.2)) = told h.notes ++ h.kept.map (fun t => (path t.1, t.2)) ++ happened path es := by
  induction es generalizing h with
  | nil => exact ⟨hl, by simp [happened]⟩
  | cons e es ih =>
    have hp' : ∀ n s i, Ev.transition n s i ∈ es ∨ Ev.looks n i ∈ es → i.path = path n := fun n s i hm => hp n s i (hm.imp (List.mem_cons_of_mem _) (List.mem_cons_of_mem _))
    have hl' : ∀ n, ((h.step e).look n).path = path n := by
      intro n
      cases e with
      | transition m s i =>
        simp only [Hub.step]
        split
        · next e => subst e; exact hp n s i (.inl List.mem_cons_self)
        · exact hl n
      | looks m i =>
        simp only [Hub.step]
        split
        · next e => subst e; exact hp n .none i (.inr List.mem_cons_self)
        · exact hl n
      | complete => exact hl n
    obtain ⟨g1, g2⟩ := ih (h.step e) hl' hp'
    refine ⟨g1, ?_⟩
    rw [List.foldl_cons, g2]
    cases e with
    | transition m s i => simp [Hub.step, happened]
    | looks m i => simp [Hub.step, happened]
    | complete =>
      have := told_kept path h.look hl h.kept
      simp only [Hub.step, happened, List.filterMap_cons, told, List.filterMap_append] at this ⊢
      rw [this]
      simp

/-- **C131.** Over any number of steps, the complete ones are told of transition by transition: each once, in order, with node and new state, and nothing else. -/
theorem c131_once (path : N → List (List Char)) (look : N → Info) (es : List (Ev N)) (hl : ∀ n, (look n).path = path n)
    (hp : ∀ n s i, Ev.transition n s i ∈ es ∨ Ev.looks n i ∈ es → i.path = path n) :
    told ((es ++ [Ev.complete]).foldl Hub.step ⟨look, [], []⟩).notes = happened path es := by
  have hp' : ∀ n s i, Ev.transition n s i ∈ es ++ [Ev.complete] ∨ Ev.looks n i ∈ es ++ [Ev.complete] → i.path = path n := fun n s i hm => hp n s i (by simpa using hm)
  have h := (once_step path ⟨look, [], []⟩ (es ++ [Ev.complete]) hl hp').2
  have hk : ((es ++ [Ev.complete]).foldl Hub.step ⟨look, [], []⟩).kept = [] := by rw [List.foldl_append]; rfl
  rw [hk] at h
  simpa [happened, told] using h

/-- Two steps: three transitions. -/
example : let i : Info := ⟨.none, .none, [], [['A']]⟩
    let j : Info := ⟨.success, .none, [], [['A']]⟩
    ((([.transition 0 .executing i, .complete, .transition 0 .iterationEnded j, .transition 0 .finished j, .complete] : List (Ev Nat)).foldl Hub.step ⟨fun _ => i, [], []⟩).notes) =
      [.transition .executing i, .transition .iterationEnded j, .transition .finished j] := by decide

/-- **C131 is false otherwise.** Messages are written when the step is complete, and say what the node is like then: if a node makes two transitions in one step, the message for the first has the outcome, failure
type and conditions after the second. (A node that runs and is finished in one step is reported EXECUTING with outcome SUCCESS.) -/
theorem c131_late_refuted (h : Hub N) (hk : h.kept = []) (n : N) (s s' : NState) (i i' : Info) :
    (([.transition n s i, .transition n s' i', .complete] : List (Ev N)).foldl Hub.step h).notes = h.notes ++ [.transition s i', .transition s' i'] := by
  simp [Hub.step, hk]

/-! ### C132: without a viewer -/

/-- **C132.** If the viewer cannot be reached and that is to be ignored, `start` succeeds, and from then on notifications do nothing. -/
theorem c132_no_viewer (c : Conn) (hi : c.ignore = true) (ns : List Note) (closed : Bool) (p : Peer) :
    (c.start false).2 = true ∧ ∀ n ∈ ns, (c.start false).1.notify closed n p = (.ok, p) := by
  constructor
  · exact hi
  · intro n _; rfl

/-- And if it is not to be ignored, `start` fails. -/
theorem c132_reported (c : Conn) : (c.start false).2 = c.ignore ∧ (c.start true).2 = true := ⟨rfl, rfl⟩

/-- **C132 is false of a viewer that goes away later**: whatever was to be ignored, the next notification throws. (`SocketException` is not a `std::exception`; nobody between here and the thread's function
catches it: `ExecListenerHub.cc`, `PlexilExec.cc`, `ExecApplication.cc:857-876`. The executive ends.) -/
theorem c132_gone_refuted (c : Conn) (n : Note) (k : Nat) (hk : k < 2) (rs : List (List Char)) (closed : Bool) : ((c.start true).1.notify closed n ⟨some k, rs⟩).1 = .thrown := by
  have hk : k = 0 ∨ k = 1 := by omega
  have key : ∀ (b : Bool), (sendMessage b closed ⟨some k, rs⟩).1 = .thrown := by
    intro b
    rcases hk with rfl | rfl <;> rfl
  have all : ∀ (b : Bool) (m : List Char) (ms : List (List Char)), (sendAll b closed (m :: ms) ⟨some k, rs⟩).1 = .thrown := by
    intro b m ms
    unfold sendAll
    have := key b
    split
    · rename_i h; rw [h] at this; cases this
    · exact this
  show (sendAll c.block closed (n.messages c.block) _).1 = _
  cases n
  · exact all c.block (formatTransition _ _) []
  · exact all c.block (formatAssignment _ _) []
  · exact all c.block (formatPlanInfo c.block) [_]
  · exact all c.block (formatPlanInfo c.block) [formatLibrary _]

/-- A viewer that answers each message with the character that ends messages is waited for, and no longer. -/
theorem c132_blocking (c : Conn) (hb : c.block = true) (n : Note) (answers rest : List (List Char)) (ha : ∀ a ∈ answers, a.head? = some eom) (hl : answers.length = (n.messages c.block).length) (closed : Bool) :
    (c.start true).1.notify closed n ⟨none, answers ++ rest⟩ = (.ok, ⟨none, rest⟩) := by
  have all : ∀ (ms answers : List (List Char)), (∀ a ∈ answers, a.head? = some eom) → answers.length = ms.length → sendAll true closed ms ⟨none, answers ++ rest⟩ = (.ok, ⟨none, rest⟩) := by
    intro ms
    induction ms with
    | nil => intro as _ hl; cases as with
      | nil => rfl
      | cons a as => cases hl
    | cons m ms ih =>
      intro as ha hl
      cases as with
      | nil => cases hl
      | cons a as =>
        have e : sendMessage true closed ⟨none, a :: as ++ rest⟩ = (.ok, ⟨none, as ++ rest⟩) := by
          simp [sendMessage, Peer.send, waitForAck, ha a (by simp)]
        unfold sendAll
        rw [e]
        exact ih as (fun x hx => ha x (by simp [hx])) (by simpa using hl)
  show (if (c.start true).1.socket then _ else _) = _
  simp only [Conn.start, if_true, hb] at hl ⊢
  exact all _ _ ha hl

/-- **C132 is false of answers with something before that character**: they are not recognised, and the executive waits on. -/
theorem c132_blocking_refuted (c : Conn) (hb : c.block = true) (n : Note) (chunks : List (List Char)) (hc : ∀ s ∈ chunks, s.head? ≠ some eom) :
    ((c.start true).1.notify false n ⟨none, chunks⟩).1 = .stuck := by
  have wait : ∀ l : List (List Char), (∀ s ∈ l, s.head? ≠ some eom) → (waitForAck false l).1 = .stuck := by
    intro l
    induction l with
    | nil => intro _; rfl
    | cons s l ih =>
      intro h
      unfold waitForAck
      rw [if_neg (h s (by simp))]
      exact ih fun x hx => h x (by simp [hx])
  have all : ∀ (m : List Char) (ms : List (List Char)), (sendAll true false (m :: ms) ⟨none, chunks⟩).1 = .stuck := by
    intro m ms
    have e : (sendMessage true false ⟨none, chunks⟩).1 = .stuck := by
      simp [sendMessage, Peer.send, wait chunks hc]
    unfold sendAll
    split
    · rename_i h; rw [h] at e; cases e
    · exact e
  show (if (c.start true).1.socket then _ else _ : Result × Peer).1 = _
  simp only [Conn.start, if_true, hb]
  cases n
  · exact all _ []
  · exact all _ []
  · exact all _ [_]
  · exact all _ [_]

/-! ### Examples -/

/-- What a node looks like. -/
def exInfo : Info := ⟨.success, .none, [("EndCondition", "true".toList)], ["Root".toList, "Leaf".toList]⟩

example : (Note.transition .finished exInfo).Plain := by
  refine ⟨?_, ?_⟩
  · intro c hc
    simp only [exInfo, List.mem_singleton] at hc
    subst hc
    exact ⟨⟨by decide, by decide⟩, by decide, by decide, by decide, by decide⟩
  · intro n hn
    simp only [exInfo, List.mem_cons, List.not_mem_nil, or_false] at hn
    rcases hn with rfl | rfl <;> exact ⟨by decide, by decide⟩

set_option maxRecDepth 10000 in
example : formatTransition .finished exInfo =
    "<NodeStateUpdate><NodeState>FINISHED</NodeState><NodeOutcome>SUCCESS</NodeOutcome><Conditions><EndCondition>true</EndCondition></Conditions><NodePath><NodeId>Root</NodeId><NodeId>Leaf</NodeId></NodePath></NodeStateUpdate>".toList := by
  rfl

/-- The message that says whether the viewer may hold up the executive. -/
theorem c131_plan_info : formatPlanInfo true = "<PlanInfo><ViewerBlocks>true</ViewerBlocks></PlanInfo>".toList ∧
    formatPlanInfo false = "<PlanInfo><ViewerBlocks>false</ViewerBlocks></PlanInfo>".toList := by decide

end Verif.Luv
