import Verif.Arbiter.Model
/- Helper lemmas about the arbiter model. -/
namespace Verif.Arbiter

/-- Sum of `f` over a list. -/
def total {α} (f : α → Int) : List α → Int
  | [] => 0
  | x :: xs => f x + total f xs

/-- The amount of resource `n` in a set of requests. -/
def amountOf (n : Name) : List Res → Int := total (fun r => if r.name = n then r.weight else 0)
/-- The amount of `n` given back on release. -/
def releasable (n : Name) : List Res → Int := total (fun r => if r.name = n ∧ r.release = true then r.weight else 0)
def posOf (n : Name) : List Res → Int := total (fun r => if r.name = n ∧ 0 ≤ r.weight then r.weight else 0)
def negOf (n : Name) : List Res → Int := total (fun r => if r.name = n ∧ r.weight < 0 then r.weight else 0)

theorem total_append {α} (f : α → Int) (a b : List α) : total f (a ++ b) = total f a + total f b := by
  induction a with
  | nil => simp [total]
  | cons x xs ih => simp [total, ih]; omega

theorem allocate_eq (rs : List Res) (a : Name → Int) (n : Name) : allocate rs a n = a n + amountOf n rs := by
  unfold allocate
  induction rs generalizing a with
  | nil => simp [amountOf, total]
  | cons r rs ih =>
    simp only [List.foldl_cons]
    rw [ih]
    simp only [amountOf, total]
    by_cases h : n = r.name
    · subst h; simp; omega
    · have : ¬ r.name = n := fun e => h e.symm
      simp [h, this]

theorem release_alloc_eq (rs : List Res) (a : Name → Int) (n : Name) :
    (rs.foldl (fun a r => if r.release then (fun n => if n = r.name then a n - r.weight else a n) else a) a) n
      = a n - releasable n rs := by
  induction rs generalizing a with
  | nil => simp [releasable, total]
  | cons r rs ih =>
    simp only [List.foldl_cons]
    rw [ih]
    simp only [releasable, total]
    cases hr : r.release
    · simp
    · by_cases h : n = r.name
      · subst h; simp; omega
      · have : ¬ r.name = n := fun e => h e.symm
        simp [h, this]

/-- A request fits, given the estimate of its resource. -/
def okRes (h : Hierarchy) (est : Est) (r : Res) : Prop :=
  0 ≤ est.renewable + (if r.weight < 0 then r.weight else 0) ∧
  est.renewable + (if r.weight < 0 then r.weight else 0) ≤ maxValue h r.name ∧
  0 ≤ est.consumable + (if r.weight < 0 then 0 else r.weight) ∧
  est.consumable + (if r.weight < 0 then 0 else r.weight) ≤ maxValue h r.name

theorem amountOf_notMem {n : Name} {rs : List Res} (h : n ∉ rs.map (·.name)) : negOf n rs = 0 ∧ posOf n rs = 0 ∧ amountOf n rs = 0 := by
  induction rs with
  | nil => simp [negOf, posOf, amountOf, total]
  | cons r rs ih =>
    simp at h
    have hn : ¬ r.name = n := fun e => h.1 e.symm
    have ih := ih (by simp; exact h.2)
    simp only [negOf, posOf, amountOf, total, hn, false_and, if_false] at ih ⊢
    omega

theorem tryRequests_spec (h : Hierarchy) (rs : List Res) (hn : (rs.map (·.name)).Nodup) (e : Ests) :
    ((∀ r ∈ rs, okRes h (e r.name) r) → ∃ e', tryRequests h rs e = some e' ∧
        ∀ n, (e' n).renewable = (e n).renewable + negOf n rs ∧ (e' n).consumable = (e n).consumable + posOf n rs) ∧
    (¬ (∀ r ∈ rs, okRes h (e r.name) r) → tryRequests h rs e = none) := by
  induction rs generalizing e with
  | nil => simp [tryRequests, negOf, posOf, total]
  | cons r rs ih =>
    simp only [List.map_cons, List.nodup_cons] at hn
    have hrn : ∀ x ∈ rs, x.name ≠ r.name := fun x hx he => hn.1 (he ▸ List.mem_map_of_mem hx)
    simp only [tryRequests]
    generalize hE : (if r.weight < 0 then ({ renewable := (e r.name).renewable + r.weight, consumable := (e r.name).consumable } : Est)
      else { renewable := (e r.name).renewable, consumable := (e r.name).consumable + r.weight }) = est
    have hest : est.renewable = (e r.name).renewable + (if r.weight < 0 then r.weight else 0) ∧
        est.consumable = (e r.name).consumable + (if r.weight < 0 then 0 else r.weight) := by
      subst hE; by_cases hw : r.weight < 0 <;> simp [hw]
    have hok : okRes h (e r.name) r ↔ ¬ (est.renewable < 0 ∨ est.renewable > maxValue h r.name) ∧
        ¬ (est.consumable < 0 ∨ est.consumable > maxValue h r.name) := by
      unfold okRes; rw [hest.1, hest.2]; omega
    have ih := ih hn.2 (fun n => if n = r.name then est else e n)
    have hsame : (∀ x ∈ rs, okRes h ((fun n => if n = r.name then est else e n) x.name) x) ↔ (∀ x ∈ rs, okRes h (e x.name) x) := by
      constructor <;> intro hh x hx <;> have := hh x hx <;> simpa [hrn x hx] using this
    rw [hsame] at ih
    by_cases h1 : okRes h (e r.name) r
    · obtain ⟨c1, c2⟩ := hok.mp h1
      simp only [Bool.or_eq_true, decide_eq_true_eq, c1, c2, if_false]
      refine ⟨?_, ?_⟩
      · intro hall
        obtain ⟨e', he', hv⟩ := ih.1 (fun x hx => hall x (by simp [hx]))
        refine ⟨e', he', ?_⟩
        intro n
        have hv := hv n
        simp only [negOf, posOf, total] at hv ⊢
        by_cases hnr : n = r.name
        · subst hnr
          simp only [if_true] at hv
          rw [hv.1, hv.2, hest.1, hest.2]
          have : (0 ≤ r.weight) ↔ ¬ (r.weight < 0) := by omega
          by_cases hw : r.weight < 0 <;> simp [hw, this] <;> omega
        · have hnr' : ¬ r.name = n := fun e => hnr e.symm
          simp only [hnr, hnr', if_false, false_and] at hv ⊢
          omega
      · intro hnall
        apply ih.2
        intro hh
        apply hnall
        intro x hx
        simp at hx
        rcases hx with rfl | hx
        · exact h1
        · exact hh x hx
    · refine ⟨fun hall => absurd (hall r (by simp)) h1, fun _ => ?_⟩
      by_cases c1 : est.renewable < 0 ∨ est.renewable > maxValue h r.name
      · simp [c1]
      · by_cases c2 : est.consumable < 0 ∨ est.consumable > maxValue h r.name
        · simp [c1, c2]
        · exact absurd (hok.mpr ⟨c1, c2⟩) h1

theorem setInsert_names (s : List Res) (r : Res) (h : (s.map (·.name)).Nodup) : ((setInsert s r).map (·.name)).Nodup := by
  unfold setInsert
  split
  · exact h
  · rename_i hn
    rw [List.map_append, List.nodup_append]
    refine ⟨h, by simp, ?_⟩
    intro a ha b hb
    simp at hb; subst hb
    simp at ha hn
    obtain ⟨x, hx, rfl⟩ := ha
    exact hn x hx

theorem foldl_inv {α β} (P : β → Prop) (f : β → α → β) (hf : ∀ b a, P b → P (f b a)) : ∀ (l : List α) (b : β), P b → P (l.foldl f b)
  | [], _, h => h
  | a :: l, b, h => foldl_inv P f hf l (f b a) (hf b a h)

theorem foldlM_inv {α β} (P : β → Prop) (f : β → α → Option β) : ∀ (l : List α) (_ : ∀ b a b', a ∈ l → P b → f b a = some b' → P b') (b b' : β), P b →
    l.foldlM f b = some b' → P b'
  | [], _, _, _, h, he => by cases he; exact h
  | a :: l, hf, b, b', h, he => by
    simp only [List.foldlM_cons, Option.bind_eq_bind, Option.bind_eq_some_iff] at he
    obtain ⟨c, hc, he⟩ := he
    exact foldlM_inv P f l (fun b a b' ha => hf b a b' (by simp [ha])) c b' (hf b a c (by simp) h hc) he

/-- Each resource occurs once in what a command needs. -/
theorem allResources_names {fuel h reqs rs} (he : allResources fuel h reqs = some rs) : (rs.map (·.name)).Nodup := by
  refine foldlM_inv (fun s : List Res => (s.map (·.name)).Nodup) _ reqs ?_ [] rs (by simp) he
  intro s r s' _ hs hr
  simp only [addRequest, Option.bind_eq_bind, Option.bind_eq_some_iff, Option.pure_def, Option.some.injEq] at hr
  obtain ⟨k, _, rfl⟩ := hr
  refine foldl_inv (fun s : List Res => (s.map (·.name)).Nodup) _ ?_ _ _ hs
  intro b a hb
  split
  · exact setInsert_names b a hb
  · split
    · exact setInsert_names b a hb
    · exact hb

theorem setInsert_all (P : Res → Prop) (s : List Res) (r : Res) (h : ∀ x ∈ s, P x) (hr : P r) : ∀ x ∈ setInsert s r, P x := by
  unfold setInsert
  split
  · exact h
  · intro x hx
    simp at hx
    rcases hx with hx | rfl
    · exact h x hx
    · exact hr

theorem childResources_all (P : Res → Prop) (h : Hierarchy)
    (hP : ∀ n node, h.find n = some node → ∀ c ∈ node.children, ∀ rel, P { c with release := rel }) :
    ∀ fuel name rel rs, childResources h fuel name rel = some rs → ∀ x ∈ rs, P x := by
  intro fuel
  induction fuel with
  | zero => intro name rel rs he; cases he
  | succ fuel ih =>
    intro name rel rs he
    rw [childResources] at he
    split at he
    · cases he; simp
    · rename_i node hf
      refine foldlM_inv (fun s : List Res => ∀ x ∈ s, P x) _ node.children ?_ [] rs (by simp) he
      intro b a b' hmem hb hr
      simp only [Option.bind_eq_bind, Option.bind_eq_some_iff, Option.pure_def, Option.some.injEq] at hr
      obtain ⟨sub, hs, rfl⟩ := hr
      intro x hx
      simp at hx
      rcases hx with hx | rfl | hx
      · exact hb x hx
      · exact hP name node hf a hmem rel
      · exact ih _ _ _ hs x hx

theorem allResources_all (P : Res → Prop) {fuel h reqs rs}
    (hP : ∀ n node, Hierarchy.find h n = some node → ∀ c ∈ node.children, ∀ rel, P { c with release := rel })
    (hR : ∀ r ∈ reqs, P { name := r.name, weight := r.upperBound, release := r.release })
    (he : allResources fuel h reqs = some rs) : ∀ x ∈ rs, P x := by
  refine foldlM_inv (fun s : List Res => ∀ x ∈ s, P x) _ reqs ?_ [] rs (by simp) he
  intro s r s' hmem hs hr
  simp only [addRequest, Option.bind_eq_bind, Option.bind_eq_some_iff, Option.pure_def, Option.some.injEq] at hr
  obtain ⟨k, hk, rfl⟩ := hr
  have hk' := childResources_all P h hP _ _ _ _ hk
  have hfl : ∀ x ∈ ({ name := r.name, weight := r.upperBound, release := r.release } :: k : List Res), P x := by
    intro x hx
    simp at hx
    rcases hx with rfl | hx
    · exact hR r hmem
    · exact hk' x hx
  generalize ({ name := r.name, weight := r.upperBound, release := r.release } :: k : List Res) = fl at hfl
  clear hk hk'
  induction fl generalizing s with
  | nil => exact hs
  | cons a fl ih =>
    simp only [List.foldl_cons]
    apply ih
    · split
      · exact setInsert_all P s a hs (hfl a (by simp))
      · split
        · exact setInsert_all P s a hs (hfl a (by simp))
        · exact hs
    · intro x hx; exact hfl x (by simp [hx])

theorem partition_entries {fuel h cmds free es} (he : partition fuel h cmds = some (free, es)) :
    free = (cmds.filter (fun p => p.2.isEmpty)).map (·.1) ∧
    es.map (fun e => (e.cmd, e.priority)) = (cmds.filter (fun p => !p.2.isEmpty)).map (fun p => (p.1, (p.2.head?.map (·.priority)).getD 0)) ∧
    ∀ e ∈ es, ∃ reqs, (e.cmd, reqs) ∈ cmds ∧ allResources fuel h reqs = some e.resources := by
  induction cmds generalizing free es with
  | nil => cases he; simp
  | cons p rest ih =>
    obtain ⟨c, reqs⟩ := p
    simp only [partition, Option.bind_eq_bind, Option.bind_eq_some_iff] at he
    obtain ⟨⟨acc, es'⟩, h1, h2⟩ := he
    obtain ⟨i1, i2, i3⟩ := ih h1
    cases reqs with
    | nil =>
      cases h2
      refine ⟨by simp [i1], by simpa using i2, ?_⟩
      intro e hm
      obtain ⟨rq, a, b⟩ := i3 e hm
      exact ⟨rq, by simp [a], b⟩
    | cons r rs =>
      simp only [Option.bind_eq_some_iff, Option.pure_def, Option.some.injEq, Prod.mk.injEq] at h2
      obtain ⟨ar, har, rfl, rfl⟩ := h2
      refine ⟨by simpa using i1, by simp [i2], ?_⟩
      intro e hm
      simp at hm
      rcases hm with rfl | hm
      · exact ⟨r :: rs, by simp, har⟩
      · obtain ⟨rq, a, b⟩ := i3 e hm
        exact ⟨rq, by simp [a], b⟩

theorem lookup_setRunning_self (m : List (Cmd × List Res)) (c rs) : (setRunning m c rs).lookup c = some rs := by
  simp [setRunning]

theorem lookup_filter_ne (m : List (Cmd × List Res)) (c d : Cmd) (h : d ≠ c) :
    (m.filter (fun p => p.1 != c)).lookup d = m.lookup d := by
  induction m with
  | nil => rfl
  | cons p m ih =>
    obtain ⟨k, v⟩ := p
    by_cases hk : k = c
    · subst hk
      simp only [List.filter_cons, bne_self_eq_false, Bool.false_eq_true, if_false, List.lookup]
      rw [ih]
      have : (d == k) = false := by simpa using h
      simp [this]
    · have : (k != c) = true := by simpa using hk
      simp only [List.filter_cons, this, if_true, List.lookup]
      split <;> simp_all

theorem lookup_setRunning_ne (m : List (Cmd × List Res)) (c d : Cmd) (rs) (h : d ≠ c) : (setRunning m c rs).lookup d = m.lookup d := by
  unfold setRunning
  have : (d == c) = false := by simpa using h
  simp only [List.lookup, this]
  exact lookup_filter_ne m c d h

theorem lookup_filter_self (m : List (Cmd × List Res)) (c : Cmd) : (m.filter (fun p => p.1 != c)).lookup c = none := by
  induction m with
  | nil => rfl
  | cons p m ih =>
    obtain ⟨k, v⟩ := p
    by_cases hk : k = c
    · subst hk; simpa [List.filter_cons] using ih
    · have : (k != c) = true := by simpa using hk
      have h2 : (c == k) = false := by simpa using fun e => hk e.symm
      simp only [List.filter_cons, this, if_true, List.lookup, h2]
      exact ih

/-- Keys unique: removing a key removes exactly its entry from a total. -/
theorem total_filter (f : Cmd × List Res → Int) (m : List (Cmd × List Res)) (c : Cmd) (hn : (m.map (·.1)).Nodup) :
    total f (m.filter (fun p => p.1 != c)) = total f m - (match m.lookup c with | some rs => f (c, rs) | none => 0) := by
  induction m with
  | nil => simp [total, List.lookup]
  | cons p m ih =>
    obtain ⟨k, v⟩ := p
    simp only [List.map_cons, List.nodup_cons] at hn
    by_cases hk : k = c
    · subst hk
      have hfil : m.filter (fun p => p.1 != k) = m := by
        rw [List.filter_eq_self]
        intro a ha
        have : a.1 ≠ k := fun e => hn.1 (e ▸ List.mem_map_of_mem ha)
        simpa using this
      simp only [List.filter_cons, bne_self_eq_false, Bool.false_eq_true, if_false, hfil, List.lookup, beq_self_eq_true, total]
      omega
    · have h1 : (k != c) = true := by simpa using hk
      have h2 : (c == k) = false := by simpa using fun e => hk e.symm
      simp only [List.filter_cons, h1, if_true, total, List.lookup, h2, ih hn.2]
      omega

theorem keys_filter (m : List (Cmd × List Res)) (p : Cmd × List Res → Bool) (hn : (m.map (·.1)).Nodup) :
    ((m.filter p).map (·.1)).Nodup :=
  hn.sublist (List.Sublist.map _ List.filter_sublist)

theorem keys_setRunning (m : List (Cmd × List Res)) (c rs) (hn : (m.map (·.1)).Nodup) : ((setRunning m c rs).map (·.1)).Nodup := by
  unfold setRunning
  simp only [List.map_cons, List.nodup_cons]
  refine ⟨?_, keys_filter _ _ hn⟩
  simp

theorem lookup_mem {m : List (Cmd × List Res)} {c rs} (h : m.lookup c = some rs) : (c, rs) ∈ m := by
  induction m with
  | nil => cases h
  | cons p m ih =>
    obtain ⟨k, v⟩ := p
    simp only [List.lookup] at h
    split at h
    · rename_i hb; cases h; simp at hb; simp [hb]
    · simp [ih h]

theorem release_none {s : State} {c : Cmd} (h : s.running.lookup c = none) : release s c = s := by
  unfold release; rw [h]

theorem release_allocated {s : State} {c : Cmd} {rs} (h : s.running.lookup c = some rs) (n : Name) :
    (release s c).allocated n = s.allocated n - releasable n rs := by
  unfold release; rw [h]; exact release_alloc_eq rs s.allocated n

theorem release_running (s : State) (c : Cmd) : (release s c).running.lookup c = none ∧
    ∀ d, d ≠ c → (release s c).running.lookup d = s.running.lookup d := by
  cases h : s.running.lookup c with
  | none => rw [release_none h]; exact ⟨h, fun _ _ => rfl⟩
  | some rs =>
    have : (release s c).running = s.running.filter (fun p => p.1 != c) := by unfold release; rw [h]
    rw [this]
    exact ⟨lookup_filter_self _ _, fun d hd => lookup_filter_ne _ _ _ hd⟩

theorem release_running_eq {s : State} {c : Cmd} {rs} (h : s.running.lookup c = some rs) :
    (release s c).running = s.running.filter (fun p => p.1 != c) := by
  unfold release; rw [h]

end Verif.Arbiter
