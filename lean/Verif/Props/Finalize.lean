import Verif.Finalize.Model
/-
C129: functions run at exit.
-/
set_option autoImplicit false
namespace Verif.Finalize

variable {F : Type}

/-- The functions registered since the last run; the last one first. (`es` is the history, the latest first.) -/
def since : List (Ev F) → List F
  | [] => []
  | .add f :: es => f :: since es
  | .run :: _ => []

/-- The slots `0 .. n-1` of the bucket hold the functions of the list, the last first. -/
def Holds (b : Bucket F) : List F → Prop
  | [] => True
  | f :: l => b l.length = some f ∧ Holds b l

theorem holds_set {b : Bucket F} {f : F} : ∀ {l : List F} {i : Nat}, l.length ≤ i → Holds b l → Holds (b.set i f) l
  | [], _, _, _ => trivial
  | g :: l, i, hi, h => by
    refine ⟨?_, holds_set (by simp at hi; omega) h.2⟩
    have : l.length ≠ i := by simp at hi; omega
    simp [Bucket.set, this, h.1]

/-- The table holds these functions, the last first: the first bucket some of them, each other one seven. -/
inductive Full : List (Bucket F) → List F → Prop
  | nil : Full [] []
  | cons {b : Bucket F} {bs : List (Bucket F)} {l l' : List F} : Holds b l → l.length = size → Full bs l' → Full (b :: bs) (l ++ l')

/-- What the table holds. -/
inductive Table : Stack F → List F → Prop
  | empty : Table .empty []
  | some {b : Bucket F} {bs : List (Bucket F)} {l l' : List F} {n : Nat} : Holds b l → l.length = n → 0 < n → n ≤ size → Full bs l' → Table ⟨b :: bs, n⟩ (l ++ l')

theorem table_push {s : Stack F} {l : List F} (h : Table s l) (f : F) : Table (s.push f) (f :: l) := by
  cases h with
  | empty =>
    exact Table.some (l := [f]) (l' := []) (n := 1) ⟨rfl, trivial⟩ rfl (by omega) (by unfold size; omega) .nil
  | @some b bs l l' n h1 h2 h3 h4 h5 =>
    by_cases hn : n = size
    · have : Stack.push ⟨b :: bs, n⟩ f = ⟨Bucket.new.set 0 f :: b :: bs, 1⟩ := by simp [Stack.push, hn]
      rw [this]
      exact Table.some (l := [f]) (l' := l ++ l') ⟨rfl, trivial⟩ rfl (by omega) (by unfold size; omega) (.cons h1 (h2.trans hn) h5)
    · have : Stack.push ⟨b :: bs, n⟩ f = ⟨b.set n f :: bs, n + 1⟩ := by simp [Stack.push, hn]
      rw [this]
      refine Table.some (l := f :: l) (l' := l') ⟨?_, holds_set (by omega) h1⟩ (by simp [h2]) (by omega) (by omega) h5
      simp [Bucket.set, h2]

theorem loop_holds {adds : F → List F} : ∀ {l : List F} {s : Frame F}, Holds s.cur l → (∀ f ∈ l, adds f = []) →
    Frame.loop adds l.length s = (l.map some, s)
  | [], _, _, _ => rfl
  | f :: l, s, h, ha => by
    simp only [List.length_cons, Frame.loop, h.1, ha f (by simp), List.foldl_nil, loop_holds h.2 (fun g hg => ha g (by simp [hg])), List.map_cons]

theorem runFrom_full {adds : F → List F} : ∀ {bs : List (Bucket F)} {l l' : List F} {b : Bucket F} {i : Nat}, Holds b l → Full bs l' → (∀ f ∈ l ++ l', adds f = []) →
    runFrom adds b bs l.length i = (l ++ l').map some
  | [], l, l', b, i, h1, h2, ha => by
    cases h2
    unfold runFrom
    simp only [loop_holds (s := ⟨[], b, [], i⟩) h1 (fun f hf => ha f (by simp [hf])), List.append_nil]
  | b' :: bs, l, l', b, i, h1, h2, ha => by
    cases h2 with
    | @cons _ _ m m' g1 g2 g3 =>
      unfold runFrom
      simp only [loop_holds (s := ⟨[], b, b' :: bs, i⟩) h1 (fun f hf => ha f (by simp [hf]))]
      rw [← g2, runFrom_full g1 g3 (fun f hf => ha f (by simp at hf ⊢; exact .inr hf))]
      simp

theorem run_table {adds : F → List F} {s : Stack F} {l : List F} (h : Table s l) (ha : ∀ f ∈ l, adds f = []) : s.run adds = l.map some := by
  cases h with
  | empty => rfl
  | @some b bs l l' n h1 h2 h3 h4 h5 =>
    subst h2
    exact runFrom_full h1 h5 ha

theorem play_table (adds : F → List F) : ∀ es : List (Ev F), Table (play adds es).1 (since es)
  | [] => .empty
  | .add f :: es => table_push (play_table adds es) f
  | .run :: _ => .empty

/-- **C129.** Provided no function registers another one when it is called: a run at exit calls the functions registered since the last run, each once, the last one first, and nothing else (no null pointer). -/
theorem c129_lifo (adds : F → List F) (es : List (Ev F)) (ha : ∀ f ∈ since es, adds f = []) :
    (play adds (.run :: es)).2 = (play adds es).2 ++ [(since es).map some] := by
  simp only [play]
  rw [run_table (play_table adds es) ha]

/-- So a second run calls nothing. -/
theorem c129_once (adds : F → List F) (es : List (Ev F)) : (play adds (.run :: .run :: es)).2 = (play adds (.run :: es)).2 ++ [[]] := by
  rw [c129_lifo adds (.run :: es) (by intro f hf; cases hf)]
  rfl

theorem foldl_push_cur : ∀ (gs : List F) (s : Frame F) (l : List F), Holds s.cur l → l.length ≤ s.idx →
    Holds (gs.foldl Frame.push s).cur l ∧ (gs.foldl Frame.push s).below = s.below
  | [], _, _, h, _ => ⟨h, rfl⟩
  | g :: gs, s, l, h, hi => by
    have key : Holds (s.push g).cur l ∧ (s.push g).below = s.below ∧ (l.length ≤ (s.push g).idx ∨ (s.push g).above ≠ []) := by
      unfold Frame.push
      split
      · exact ⟨h, rfl, .inr (by simp)⟩
      · split
        · exact ⟨holds_set hi h, rfl, .inl (by simp only; omega)⟩
        · exact ⟨h, rfl, .inl (by simp only; omega)⟩
    -- once there is a new bucket, this one is not written any more
    have stay : ∀ (gs : List F) (s : Frame F), s.above ≠ [] → (gs.foldl Frame.push s).cur = s.cur ∧ (gs.foldl Frame.push s).below = s.below := by
      intro gs
      induction gs with
      | nil => intro s _; exact ⟨rfl, rfl⟩
      | cons g gs ih =>
        intro s hs
        have : (s.push g).above ≠ [] ∧ (s.push g).cur = s.cur ∧ (s.push g).below = s.below := by
          unfold Frame.push
          split
          · exact ⟨by simp, rfl, rfl⟩
          · split
            · rename_i h0; exact absurd h0 hs
            · exact ⟨by simp, rfl, rfl⟩
        obtain ⟨h1, h2⟩ := ih (s.push g) this.1
        exact ⟨h1.trans this.2.1, h2.trans this.2.2⟩
    rw [List.foldl_cons]
    rcases key.2.2 with hk | hk
    · obtain ⟨h1, h2⟩ := foldl_push_cur gs (s.push g) l key.1 hk
      exact ⟨h1, h2.trans key.2.1⟩
    · obtain ⟨h1, h2⟩ := stay gs (s.push g) hk
      exact ⟨by rw [h1]; exact key.1, h2.trans key.2.1⟩

/-- **C129 is false of functions that register others when they are called.** If the one registered last does so, what it registers is never called: not in this run, and not in a later one. -/
theorem c129_late_refuted (adds : F → List F) (es : List (Ev F)) (f : F) (ha : ∀ g ∈ since es, adds g = []) (more : List (Ev F)) :
    (play adds (.run :: .add f :: es)).2 = (play adds es).2 ++ [some f :: (since es).map some] ∧
      since (more ++ .run :: .add f :: es) = since (more ++ ([.run] : List (Ev F))) := by
  constructor
  · simp only [play]
    congr 2
    have ht := play_table adds (.add f :: es)
    simp only [play, since] at ht
    generalize hs : Stack.push (play adds es).1 f = s at ht ⊢
    generalize hl : f :: since es = l0 at ht
    cases ht with
    | empty => cases hl
    | @some b bs l l' n h1 h2 h3 h4 h5 =>
      cases l with
      | nil => simp at h2; omega
      | cons f' l =>
        injection hl with hf hl
        have hl : since es = l ++ l' := hl
        subst hf
        subst h2
        simp only [Stack.run]
        have hb : ∀ g ∈ l ++ l', adds g = [] := by rw [← hl]; exact ha
        obtain ⟨k1, k2⟩ := foldl_push_cur (adds f) ⟨[], b, bs, (f :: l).length⟩ l h1.2 (by simp)
        have hloop : ∃ i, Frame.loop adds (f :: l).length ⟨[], b, bs, (f :: l).length⟩ = (some f :: l.map some, i) := by
          simp only [List.length_cons, Frame.loop, h1.1] at k1 ⊢
          rw [loop_holds k1 (fun g hg => hb g (by simp [hg]))]
          exact ⟨_, rfl⟩
        obtain ⟨i, hi⟩ := hloop
        rw [hl]
        cases bs with
        | nil =>
          cases h5
          unfold runFrom
          simp only
          rw [hi]
          simp
        | cons b' bs =>
          cases h5 with
          | @cons _ _ m m' g1 g2 g3 =>
            unfold runFrom
            simp only [hi]
            rw [← g2, runFrom_full g1 g3 (fun g hg => hb g (by simp at hg ⊢; exact .inr hg))]
            simp
  · induction more with
    | nil => rfl
    | cons e more ih => cases e <;> simp [since, ih]

/-- **C129 is false too when another one does so**: the new function may take the place of one that has not been called, which is then never called. Of eight functions, the seventh registers another one: the
second is lost. -/
theorem c129_displaced_refuted (f1 f2 f3 f4 f5 f6 f7 f8 g : F) (adds : F → List F) (h : ∀ f ∈ [f1, f2, f3, f4, f5, f6, f8, g], adds f = []) (h7 : adds f7 = [g]) :
    (play adds (.run :: [f8, f7, f6, f5, f4, f3, f2, f1].map .add)).2 = [[some f8, some f7, some f6, some f5, some f4, some f3, some g, some f1]] := by
  simp only [List.mem_cons, List.not_mem_nil, or_false, forall_eq_or_imp, forall_eq] at h
  obtain ⟨h1, h2, h3, h4, h5, h6, h8, hg⟩ := h
  simp [play, Stack.push, Stack.empty, Stack.run, runFrom, Frame.loop, Frame.push, Bucket.set, Bucket.new, size, h1, h2, h3, h4, h5, h6, h7, h8, hg]

/-- Ten functions, then a run: ten calls, in two buckets. -/
example : (play (fun _ => []) (.run :: [10, 9, 8, 7, 6, 5, 4, 3, 2, 1].map Ev.add)).2 = [[10, 9, 8, 7, 6, 5, 4, 3, 2, 1].map some] :=
  c129_lifo (fun _ => []) _ (by simp)

/-- Two registered by one of them take two places: of eight functions, the seventh registers two others, and the second and the third are lost. -/
theorem c129_displaced_two_refuted (f1 f2 f3 f4 f5 f6 f7 f8 g k : F) (adds : F → List F) (h : ∀ f ∈ [f1, f2, f3, f4, f5, f6, f8, g, k], adds f = []) (h7 : adds f7 = [g, k]) :
    (play adds (.run :: [f8, f7, f6, f5, f4, f3, f2, f1].map .add)).2 = [[some f8, some f7, some f6, some f5, some f4, some k, some g, some f1]] := by
  simp only [List.mem_cons, List.not_mem_nil, or_false, forall_eq_or_imp, forall_eq] at h
  obtain ⟨h1, h2, h3, h4, h5, h6, h8, hg, hk⟩ := h
  simp [play, Stack.push, Stack.empty, Stack.run, runFrom, Frame.loop, Frame.push, Bucket.set, Bucket.new, size, h1, h2, h3, h4, h5, h6, h7, h8, hg, hk]

/-- Fourteen functions: the last registers two others, for which there is no place among the fourteen; those are not called, and a third one, that the seventh registers, takes the place of the third. -/
theorem c129_not_called_refuted (f : Nat → F) (g k m : F) (adds : F → List F) (h : ∀ i, i ≠ 7 → i ≠ 14 → adds (f i) = [])
    (hm : adds m = []) (h7 : adds (f 7) = [m]) (h14 : adds (f 14) = [g, k]) :
    (play adds (.run :: [f 14, f 13, f 12, f 11, f 10, f 9, f 8, f 7, f 6, f 5, f 4, f 3, f 2, f 1].map .add)).2 =
      [[some (f 14), some (f 13), some (f 12), some (f 11), some (f 10), some (f 9), some (f 8), some (f 7), some (f 6), some (f 5), some (f 4), some m, some (f 2), some (f 1)]] := by
  simp [play, Stack.push, Stack.empty, Stack.run, runFrom, Frame.loop, Frame.push, Bucket.set, Bucket.new, size, h, h7, h14, hm]

end Verif.Finalize
