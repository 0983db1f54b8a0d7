import Verif.Follow.Spec
import Verif.Props.Listen
import Verif.Props.Exec
set_option autoImplicit false
set_option maxRecDepth 100000
/-!
C152: a listener can follow the plan (C01, C16, C35 and C89 put together).
-/
namespace Verif.Follow
open Verif.Exec
open Verif.Listen (Report Hub Act Ev reports passes toFilter Enabled Tr)

variable {Val Env : Type} {P : Plan Val Env} {Pl : Type}

/-! ## The log of an executive that is idle is a sequence of steps: transitions first, then the rest -/

/-- Whole steps. -/
inductive Shaped : List (Event Val Env) → Prop
  | nil : Shaped []
  | snoc {l tr out o} : Shaped l → (∀ e ∈ tr, IsMove e) → (∀ e ∈ out, ¬ IsMove e ∧ ¬ IsDone e) → Shaped (l ++ (tr ++ out ++ [.stepDone o]))

theorem shaped_suffix {L : List (Event Val Env)} (h : Macros P L) : ∀ A l, L = A ++ l → Macros P A → Shaped l := by
  induction h with
  | nil => intro A l h _; simp at h; rw [h.2]; exact .nil
  | @snoc L' seg hm hs ih =>
    intro A l hl hA
    obtain ⟨tr, acc, rej, o', hseg, hmoves, _⟩ := hs.shape
    have hseg' : seg = (tr ++ outputs P tr acc rej o') ++ [.stepDone o'] := by rw [hseg]; simp [outputs]
    have hnd : ∀ x ∈ tr ++ outputs P tr acc rej o', ¬ IsDone x := by
      intro x hx
      rcases List.mem_append.1 hx with hx | hx
      · have := hmoves x hx; intro hd; cases x <;> simp_all [IsMove, IsDone]
      · exact (outputs_not tr acc rej o' x hx).2
    rcases List.append_eq_append_iff.1 hl with ⟨c, hc1, hc2⟩ | ⟨c, hc1, hc2⟩
    · -- `A` reaches into `seg`
      cases c with
      | nil =>
        simp only [List.nil_append] at hc2
        rw [← hc2, hseg']
        exact Shaped.snoc (l := []) .nil hmoves (fun e he => outputs_not tr acc rej o' e he)
      | cons x c =>
        have hlast : ∃ d o, x :: c = d ++ [.stepDone o] := by
          rcases hA.last with h1 | ⟨A', o, h1⟩
          · rw [h1] at hc1; simp at hc1
          · rcases List.eq_nil_or_concat (x :: c) with h2 | ⟨d, y, h2⟩
            · cases h2
            · rw [List.concat_eq_append] at h2
              rw [h1, h2, ← List.append_assoc] at hc1
              have := (List.append_inj' hc1 rfl).2
              simp only [List.cons.injEq, and_true] at this
              exact ⟨d, o, by rw [h2, this]⟩
        obtain ⟨d, o, hd⟩ := hlast
        rw [hd, hseg'] at hc2
        rcases List.eq_nil_or_concat l with h3 | ⟨l', y, h3⟩
        · rw [h3]; exact .nil
        · exfalso
          rw [List.concat_eq_append] at h3
          rw [h3, ← List.append_assoc] at hc2
          have := (List.append_inj' hc2 rfl).1
          exact hnd (.stepDone o) (by rw [this]; simp) trivial
    · subst hc2
      have := ih A c hc1 hA
      rw [hseg']
      exact Shaped.snoc this hmoves (fun e he => outputs_not tr acc rej o' e he)

/-! ## What the hub is told -/

theorem report_of_calls (P : Plan Val Env) (l : List (Event Val Env)) : reports (l.flatMap (calls (Pl := Pl) P)) = l.filterMap (report P) := by
  induction l with
  | nil => rfl
  | cons e l ih =>
    have : reports ((e :: l).flatMap (calls (Pl := Pl) P)) = reports (calls P e) ++ reports (l.flatMap (calls P)) := by simp [reports]
    rw [this, ih]
    cases e <;> simp [calls, report, reports, Verif.Listen.reportsOf, List.filterMap_cons]

/-- The calls of whole steps are cycles. -/
theorem acts_of_shaped {l : List (Event Val Env)} (h : Shaped l) :
    ∃ as : List (Act NodeId (Nat × Val) Pl), as.flatMap Act.calls = l.flatMap (calls P) ∧ as.countP Act.adds = 0 := by
  induction h with
  | nil => exact ⟨[], rfl, rfl⟩
  | @snoc l tr out o hs hm ho ih =>
    obtain ⟨as, h1, h2⟩ := ih
    have a1 : ∀ tr : List (Event Val Env), (∀ e ∈ tr, IsMove e) → ∃ rs : List (List (Tr NodeId)), rs.map (Ev.transitions (A := Nat × Val) (P := Pl)) = tr.flatMap (calls P) := by
      intro tr
      induction tr with
      | nil => intro _; exact ⟨[], rfl⟩
      | cons e tr ih =>
        intro hm
        obtain ⟨rs, hrs⟩ := ih (fun e' h' => hm e' (by simp [h']))
        have he := hm e (by simp)
        cases e with
        | trans n a b o => exact ⟨[⟨n, text a, text b⟩] :: rs, by simp [hrs, calls]⟩
        | start n o => exact ⟨rs, by simp [hrs, calls]⟩
        | _ => exact he.elim
    have a2 : ∀ out : List (Event Val Env), (∀ e ∈ out, ¬ IsMove e ∧ ¬ IsDone e) → ∃ xs : List (Nat × Val), xs.map (Ev.assignment (N := NodeId) (P := Pl)) = out.flatMap (calls P) := by
      intro out
      induction out with
      | nil => intro _; exact ⟨[], rfl⟩
      | cons e out ih =>
        intro ho
        obtain ⟨xs, hxs⟩ := ih (fun e' h' => ho e' (by simp [h']))
        have he := ho e (by simp)
        cases e with
        | trans => exact (he.1 trivial).elim
        | start => exact (he.1 trivial).elim
        | stepDone => exact (he.2 trivial).elim
        | assign n v => exact ⟨((P.node n).dest, v) :: xs, by simp [hxs, calls]⟩
        | retract n v => exact ⟨((P.node n).dest, v) :: xs, by simp [hxs, calls]⟩
        | _ => exact ⟨xs, by simp [hxs, calls]⟩
    obtain ⟨rs, hrs⟩ := a1 tr hm
    obtain ⟨xs, hxs⟩ := a2 out ho
    refine ⟨as ++ [.cycle rs xs []], ?_, by simp [h2, Act.adds]⟩
    simp only [List.flatMap_append, h1, List.flatMap_cons, List.flatMap_nil, List.append_nil, Act.calls, Verif.Listen.cycle, List.map_nil, hrs, hxs]
    simp [calls]

theorem Continues.reach {x y : Phase × St Val Env} (h : Continues P x y) (hr : Reach P x.1 x.2) : Reach P y.1 y.2 := by
  induction h with
  | refl => exact hr
  | step _ hs ih => exact ih.step hs

/-! ## The theorems -/

/-- Listeners `fs` are there from the beginning; the executive runs from the start to `s0`; a listener with filter `f` is added; the executive goes on to `s1`. What this listener has been told then. -/
def toldTo (P : Plan Val Env) (fs : List (Option (Verif.Listen.Filter NodeId (Nat × Val) Pl))) (f : Option (Verif.Listen.Filter NodeId (Nat × Val) Pl)) (s0 s1 : St Val Env) :
    Option (Told Val Pl) :=
  ((Hub.run {} (fs.map .addListener ++ s0.log.flatMap (calls P) ++ [.addListener f] ++ (s1.log.drop s0.log.length).flatMap (calls P))).listeners[fs.length]?).map (·.told)

/-- Reports: a listener added while the executive is idle has been told, whenever the executive is idle again, exactly the transitions, assignments and retractions that happened in between and
that pass its filter, in the order in which they happened. -/
theorem told_log {s0 s1 : St Val Env} (h0 : Reach P .idle s0) (h1 : Reach P .idle s1) {l : List (Event Val Env)} (hl : s1.log = s0.log ++ l)
    (fs : List (Option (Verif.Listen.Filter NodeId (Nat × Val) Pl))) (f : Option (Verif.Listen.Filter NodeId (Nat × Val) Pl)) :
    toldTo P fs f s0 s1 = some ((l.filterMap (report P)).filter (passes f)) := by
  have m0 := Verif.Props.Exec.C16_macro_steps h0
  have m1 := Verif.Props.Exec.C16_macro_steps h1
  obtain ⟨as0, a1, a2⟩ := acts_of_shaped (P := P) (Pl := Pl) (shaped_suffix m0 [] s0.log rfl .nil)
  obtain ⟨as1, b1, b2⟩ := acts_of_shaped (P := P) (Pl := Pl) (shaped_suffix m1 s0.log l hl m0)
  have key := Verif.Listen.c89_told (fs.map Act.addListener ++ as0) as1 f
  have e1 : ∀ fs : List (Option (Verif.Listen.Filter NodeId (Nat × Val) Pl)), (fs.map (Act.addListener (N := NodeId) (A := Nat × Val) (P := Pl))).flatMap Act.calls = fs.map .addListener := by
    intro fs; induction fs with
    | nil => rfl
    | cons g fs ih => simp [ih, Act.calls]
  have e2 : ∀ fs : List (Option (Verif.Listen.Filter NodeId (Nat × Val) Pl)), (fs.map (Act.addListener (N := NodeId) (A := Nat × Val) (P := Pl))).countP Act.adds = fs.length := by
    intro fs; induction fs with
    | nil => rfl
    | cons g fs ih => simp only [List.map_cons, List.countP_cons, ih, Act.adds, List.length_cons, if_true]
  simp only [List.flatMap_append, List.countP_append, e1, e2, a1, a2, b1, Nat.add_zero, report_of_calls, List.flatMap_cons, List.flatMap_nil, List.append_nil] at key
  unfold toldTo
  have hd : s1.log.drop s0.log.length = l := by rw [hl]; simp
  rw [hd]
  simp only [Act.calls] at key
  rw [key]
  rfl

/-! ### States -/

theorem lastTold_snoc (n : NodeId) (T : Told Val Pl) (r : Report NodeId (Nat × Val) Pl) :
    lastTold n (T ++ [r]) = (match r with | .transition t => if t.node = n then some t.new else none | _ => none).or (lastTold n T) := by
  induction T with
  | nil => cases r <;> simp [lastTold]
  | cons q T ih =>
    cases q <;> simp only [List.cons_append, lastTold, ih] <;> cases r <;> simp [Option.or_assoc]

theorem snoc_ind {α : Type} {C : List α → Prop} (h0 : C []) (h1 : ∀ l a, C l → C (l ++ [a])) (l : List α) : C l := by
  have : ∀ r : List α, C r.reverse := by
    intro r; induction r with
    | nil => simpa using h0
    | cons a r ih => rw [List.reverse_cons]; exact h1 _ _ ih
  simpa using this l.reverse

/-- All transitions in `l` start in the state the node is in, if the states before `l` are `st`. -/
def Chained (st : NodeId → Verif.Node.NState) (l : List (Event Val Env)) : Prop :=
  ∀ pre n a b o post, l = pre ++ .trans n a b o :: post → lastState n pre (st n) = a

theorem Chained.init {st : NodeId → Verif.Node.NState} {l : List (Event Val Env)} {e : Event Val Env} (h : Chained st (l ++ [e])) : Chained st l :=
  fun pre n a b o post hl => h pre n a b o (post ++ [e]) (by rw [hl]; simp)

theorem chained {s0 s1 : St Val Env} {ph0 ph1 : Phase} (h0 : Reach P ph0 s0) (h1 : Reach P ph1 s1) {l : List (Event Val Env)} (hl : s1.log = s0.log ++ l) :
    Chained s0.st l ∧ ∀ n, lastState n l (s0.st n) = s1.st n := by
  constructor
  · intro pre n a b o post h
    have := (Verif.Props.Exec.C01_history h1 (pre := s0.log ++ pre) (n := n) (a := a) (b := b) (o := o) (post := post) (by rw [hl, h]; simp)).1
    rw [lastState_append, (Verif.Props.Exec.C01_states h0 n).1] at this
    exact this
  · intro n
    have := (Verif.Props.Exec.C01_states h1 n).1
    rw [hl, lastState_append, (Verif.Props.Exec.C01_states h0 n).1] at this
    exact this

/-- What is known of the state of a node from reports filtered by states: exactly the state if it is one of those, and that it is not one of those otherwise. -/
theorem known (e : Enabled) (n : NodeId) (st : NodeId → Verif.Node.NState) (l : List (Event Val Env)) : Chained st l →
    let T := (l.filterMap (report (Pl := Pl) P)).filter (passes (some (toFilter e)))
    (e (text (lastState n l (st n))) = true → (lastTold n T).getD (text (st n)) = text (lastState n l (st n))) ∧
    (e (text (lastState n l (st n))) = false → e ((lastTold n T).getD (text (st n))) = false) := by
  induction l using snoc_ind with
  | h0 => intro _; exact ⟨fun _ => rfl, fun h => h⟩
  | h1 l ev ih =>
    intro hc
    have ih' := ih hc.init
    simp only at ih' ⊢
    have skip : ∀ r : Option (Report NodeId (Nat × Val) Pl), report P ev = r → (∀ t, r ≠ some (.transition t)) → lastState n (l ++ [ev]) (st n) = lastState n l (st n) →
        (lastTold n (((l ++ [ev]).filterMap (report (Pl := Pl) P)).filter (passes (some (toFilter e))))) = lastTold n ((l.filterMap (report (Pl := Pl) P)).filter (passes (some (toFilter e)))) := by
      intro r hr hnt _
      rw [List.filterMap_append, List.filter_append]
      cases r with
      | none => simp [List.filterMap_cons, hr]
      | some q =>
        simp only [List.filterMap_cons, hr, List.filterMap_nil, List.filter_cons, List.filter_nil]
        split
        · rw [lastTold_snoc]
          cases q with
          | transition t => exact (hnt t rfl).elim
          | assignment => rfl
          | plan => rfl
        · simp
    have lsk : (∀ m a b o, ev ≠ .trans m a b o) → lastState n (l ++ [ev]) (st n) = lastState n l (st n) := by
      intro h
      rw [lastState_append]
      cases ev <;> first | rfl | exact (h _ _ _ _ rfl).elim
    by_cases htr : ∃ m a b o, ev = .trans m a b o
    · obtain ⟨m, a, b, o, rfl⟩ := htr
      have ha := hc l m a b o [] (by simp)
      rw [List.filterMap_append, List.filter_append, lastState_append]
      simp only [report, List.filterMap_cons, List.filterMap_nil, List.filter_cons, List.filter_nil, passes, toFilter, lastState]
      by_cases hm : m = n
      · subst hm
        simp only [if_true]
        rw [ha] at ih'
        by_cases hp : (e (text a) || e (text b)) = true
        · simp only [hp, if_true, lastTold_snoc, Option.some_or, Option.getD_some]
          exact ⟨fun _ => (by first | rfl | trivial), fun h => h⟩
        · simp only [hp]
          simp only [Bool.or_eq_true, not_or, Bool.not_eq_true] at hp
          simp only [Bool.false_eq_true, if_false, List.append_nil]
          exact ⟨fun h => (by rw [hp.2] at h; cases h), fun _ => ih'.2 hp.1⟩
      · simp only [hm, if_false]
        by_cases hp : (e (text a) || e (text b)) = true
        · simp only [hp, if_true, lastTold_snoc, hm, if_false, Option.none_or]; exact ih'
        · simp only [hp, Bool.false_eq_true, if_false, List.append_nil]; exact ih'
    · have hno : ∀ m a b o, ev ≠ .trans m a b o := fun m a b o h => htr ⟨m, a, b, o, h⟩
      have hrep : ∀ t, report (Pl := Pl) P ev ≠ some (.transition t) := by
        intro t; cases ev <;> simp [report] at * 
      rw [skip _ rfl hrep (lsk hno), lsk hno]
      exact ih'

/-- States: a listener without a filter knows the state of every node whenever the executive is idle: the new state of the last transition it was told of, or, if it was told of none, the state
when it was added. -/
theorem states_log {s0 s1 : St Val Env} (h0 : Reach P .idle s0) (h1 : Reach P .idle s1) {l : List (Event Val Env)} (hl : s1.log = s0.log ++ l)
    (fs : List (Option (Verif.Listen.Filter NodeId (Nat × Val) Pl))) (n : NodeId) :
    ∃ T, toldTo P fs none s0 s1 = some T ∧ (lastTold n T).getD (text (s0.st n)) = text (s1.st n) := by
  refine ⟨_, told_log h0 h1 hl fs none, ?_⟩
  obtain ⟨hc, hs⟩ := chained h0 h1 hl
  have := (known (P := P) (Pl := Pl) (fun _ => true) n s0.st l hc).1 rfl
  rw [hs] at this
  have e : (l.filterMap (report (Pl := Pl) P)).filter (passes (some (toFilter fun _ => true))) = (l.filterMap (report P)).filter (passes none) := by
    apply List.filter_congr
    intro x _
    cases x <;> rfl
  rw [e] at this
  exact this

/-- Filters: a listener that has asked for some states only still knows, whenever the executive is idle, which nodes are in which of those states: the last transition it was told of leads to the
state of the node, if the node is in one of those states, and to none of those states otherwise. -/
theorem filtered_log {s0 s1 : St Val Env} (h0 : Reach P .idle s0) (h1 : Reach P .idle s1) {l : List (Event Val Env)} (hl : s1.log = s0.log ++ l)
    (fs : List (Option (Verif.Listen.Filter NodeId (Nat × Val) Pl))) (e : Enabled) (n : NodeId) :
    ∃ T, toldTo P fs (some (toFilter e)) s0 s1 = some T ∧
      (e (text (s1.st n)) = true → (lastTold n T).getD (text (s0.st n)) = text (s1.st n)) ∧
      (e (text (s1.st n)) = false → e ((lastTold n T).getD (text (s0.st n))) = false) := by
  refine ⟨_, told_log h0 h1 hl fs _, ?_⟩
  obtain ⟨hc, hs⟩ := chained h0 h1 hl
  have := known (P := P) (Pl := Pl) e n s0.st l hc
  rw [hs] at this
  exact this

/-! ### Variables -/

theorem followVar_append (v : Nat) (T U : Told Val Pl) (x : Option Val) : followVar P v (T ++ U) x = followVar P v U (followVar P v T x) := by
  induction T generalizing x with
  | nil => rfl
  | cons r T ih => cases r <;> exact ih _

/-- What is known of a variable from the events so far. -/
def fol (P : Plan Val Env) (v : Nat) (l : List (Event Val Env)) (x : Option Val) : Option Val := followVar P v (l.filterMap (report (Pl := Unit) P)) x

theorem fol_append (v : Nat) (l l' : List (Event Val Env)) (x : Option Val) : fol P v (l ++ l') x = fol P v l' (fol P v l x) := by
  simp [fol, List.filterMap_append, followVar_append]

/-- A step keeps what is known right. -/
def Tracks (P : Plan Val Env) (s s' : St Val Env) : Prop :=
  ∃ l, s'.log = s.log ++ l ∧ ∀ v x, (x = none ∨ x = some (s.vars v)) → (fol P v l x = none ∨ fol P v l x = some (s'.vars v))

theorem Tracks.same {s s' : St Val Env} (h1 : s'.log = s.log) (h2 : s'.vars = s.vars) : Tracks P s s' :=
  ⟨[], by simp [h1], fun v x h => by rw [h2]; exact h⟩

theorem Tracks.trans {a b c : St Val Env} (h1 : Tracks P a b) (h2 : Tracks P b c) : Tracks P a c := by
  obtain ⟨l, e1, e2⟩ := h1
  obtain ⟨l', e3, e4⟩ := h2
  exact ⟨l ++ l', by rw [e3, e1, List.append_assoc], fun v x h => by rw [fol_append]; exact e4 v _ (e2 v x h)⟩

theorem Tracks.assignExec (s : St Val Env) (n) : Tracks P s (assignExec P s n) := by
  refine ⟨[.assign n (s.fixed n)], by simp [Exec.assignExec], ?_⟩
  intro v x hx
  simp only [Exec.assignExec, notifyAll_vars, fol, report, List.filterMap_cons, List.filterMap_nil, followVar, Verif.Exec.set]
  by_cases h : (P.node n).dest = v
  · simp [h]
  · simpa [h, Ne.symm h] using hx

theorem Tracks.assignRetract (s : St Val Env) (n) : Tracks P s (assignRetract P s n) := by
  refine ⟨[.retract n (s.saved (P.node n).dest)], by simp [Exec.assignRetract], ?_⟩
  intro v x hx
  simp only [Exec.assignRetract, notifyAll_vars, fol, report, List.filterMap_cons, List.filterMap_nil, followVar, Verif.Exec.set]
  by_cases h : (P.node n).dest = v
  · simp [h]
  · simpa [h, Ne.symm h] using hx

theorem Tracks.foldl (f : St Val Env → NodeId → St Val Env) (hf : ∀ s n, Tracks P s (f s n)) (l : List NodeId) (s : St Val Env) : Tracks P s (l.foldl f s) := by
  induction l generalizing s with
  | nil => exact .same rfl rfl
  | cons n l ih => exact (hf s n).trans (ih _)

theorem fol_out (v) (l : List (Event Val Env)) (x : Option Val)
    (h : ∀ e ∈ l, match e with | .assign .. | .retract .. | .trans .. => False | _ => True) : fol P v l x = x := by
  induction l generalizing x with
  | nil => rfl
  | cons e l ih =>
    have := h e (by simp)
    have ih := ih x (fun e' h' => h e' (by simp [h']))
    cases e <;> first | exact this.elim | exact ih

theorem Tracks.finishStep (s : St Val Env) (acc rej) : Tracks P s (finishStep P acc rej s) := by
  unfold Exec.finishStep performAssignments
  simp only
  have h1 := Tracks.foldl (P := P) _ Tracks.assignExec s.asg s
  generalize s.asg.foldl (Exec.assignExec P) s = x at *
  have h2 := Tracks.foldl (P := P) _ Tracks.assignRetract x.ret { x with asg := [] }
  generalize x.ret.foldl (Exec.assignRetract P) { x with asg := [] } = y at *
  refine h1.trans (Tracks.trans (b := y) (by obtain ⟨l, g1, g2⟩ := h2; exact ⟨l, g1, g2⟩) ?_)
  refine ⟨acc.map (fun n => Event.command n (y.fixed n)) ++ rej.map Event.deny ++
      y.aborts.map Event.abort ++ y.upds.map (fun n => Event.update n (y.fixed n)) ++
      [.stepDone (outbound acc rej { y with ret := [] }).obs], by simp [outbound], ?_⟩
  intro v z hz
  rw [fol_out]
  · exact hz
  · intro e he
    simp only [List.mem_append, List.mem_map, List.mem_singleton] at he
    rcases he with (((⟨_, _, rfl⟩ | ⟨_, _, rfl⟩) | ⟨_, _, rfl⟩) | ⟨_, _, rfl⟩) | rfl <;> trivial

theorem Tracks.transition (n b) (s : St Val Env) (hb : s.nx n = some b) (hne : b ≠ s.st n) : Tracks P s (transition P n s) := by
  refine ⟨_, transition_log P n s b hb hne, ?_⟩
  intro v x hx
  rw [transition_vars P n s b hb hne]
  have hv : (transFrom n (s.st n) b s).vars = s.vars := by unfold transFrom resetNode; split <;> rfl
  by_cases h : b = .executing
  · simp only [if_pos h, fol, report, List.filterMap_cons, List.filterMap_nil, followVar]
    by_cases hl : v ∈ (P.node n).locals.map Prod.fst
    · left; simp only [hl, h, text, and_self, if_true]
    · rw [if_neg (fun e => hl e.2), enterVars_other _ _ _ _ (fun _ => hl), hv]; exact hx
  · have ht : text b ≠ .executing := by cases b <;> simp_all [text]
    simp only [if_neg h, fol, report, List.filterMap_cons, List.filterMap_nil, followVar]
    rw [if_neg (fun e => ht e.1), enterVars_other _ _ _ _ (fun e => absurd e h), hv]; exact hx

theorem Tracks.step {ph ph' : Phase} {s s' : St Val Env} (hr : Reach P ph s) (hs : Step P (ph, s) (ph', s')) : Tracks P s s' := by
  obtain ⟨hI, hid, hchk⟩ := hr.inv
  cases hs with
  | ext _ e ns => exact .same (by simp) (by simp)
  | ackUpd _ n =>
    unfold ackUpdate
    split
    · exact .same (by simp) (by simp)
    · exact .same rfl rfl
  | deletePlans _ => exact .same rfl rfl
  | begin _ => exact .same rfl rfl
  | check _ n rest hc =>
    obtain ⟨_, _, _, e4, _, _, _, _, _, _, _, _, _, _, _, e16, e17⟩ := (checkOne_frame (P := P) n rest s).fields
    exact .same e16 e4
  | resolve _ hc hne =>
    obtain ⟨_, _, _, e4, _, _, _, _, _, _, _, _, _, _, _, e16, e17⟩ := (resolve_frame (P := P) s).fields
    exact .same e16 e4
  | trans _ n rest hc =>
    have hin : n ∈ s.change := by rw [hc]; simp
    obtain ⟨d, o, hd, hst, hf, hnx, hnxO, hnxF, hbase⟩ := hI.N.dec n hin
    obtain ⟨hex, hcons⟩ := hI.N.ok n
    have hd' : Verif.Node.getDest (P.node n).type (s.st n) (parentState P o n) (s.fail n) (conds P o n) = some d := by
      rw [← hst, ← hf]; exact hd
    have hne := getDest_ne hd' hex
    unfold transOne
    simp only
    split
    · exact (Tracks.same (s := s) rfl rfl).trans (Tracks.transition n d.state _ hnx hne)
    · exact (Tracks.same (s := s) rfl rfl).trans (Tracks.transition n d.state _ hnx hne)
  | again _ hc hn hne => exact .same rfl rfl
  | finishQuiet _ acc rej hc hne hp =>
    obtain ⟨_, _, _, e4, _, _, _, _, _, _, _, _, _, _, _, e16, e17⟩ := (resolve_frame (P := P) s).fields
    exact (Tracks.same e16 e4).trans (.finishStep _ _ _)
  | finish _ acc rej hc hne hp => exact .finishStep _ _ _

theorem Tracks.continues {x y : Phase × St Val Env} (h : Continues P x y) (hr : Reach P x.1 x.2) : Tracks P x.2 y.2 := by
  induction h with
  | refl => exact .same rfl rfl
  | step h hs ih => exact (ih).trans (.step (Continues.reach h hr) hs)

/-- What is known does not depend on the type of plans. -/
theorem fol_eq (v : Nat) (l : List (Event Val Env)) (x : Option Val) : followVar P v (l.filterMap (report (Pl := Pl) P)) x = fol P v l x := by
  unfold fol
  induction l generalizing x with
  | nil => rfl
  | cons e l ih =>
    cases e <;> simp only [List.filterMap_cons, report, followVar] <;> exact ih _

/-- C152, reports: a listener added while the executive is idle has been told, whenever the executive is idle again, exactly the transitions, assignments and retractions that happened in between and
that pass its filter, in the order in which they happened. -/
theorem c152_told {s0 s1 : St Val Env} (h0 : Reach P .idle s0) (hc : Continues P (.idle, s0) (.idle, s1))
    (fs : List (Option (Verif.Listen.Filter NodeId (Nat × Val) Pl))) (f : Option (Verif.Listen.Filter NodeId (Nat × Val) Pl)) :
    ∃ l, s1.log = s0.log ++ l ∧ toldTo P fs f s0 s1 = some ((l.filterMap (report P)).filter (passes f)) := by
  obtain ⟨l, hl, _⟩ := Tracks.continues hc h0
  exact ⟨l, hl, told_log h0 (Continues.reach hc h0) hl fs f⟩

/-- C152, states: a listener without a filter knows the state of every node whenever the executive is idle: the new state of the last transition it was told of, or, if it was told of none, the state
when it was added. -/
theorem c152_states {s0 s1 : St Val Env} (h0 : Reach P .idle s0) (hc : Continues P (.idle, s0) (.idle, s1))
    (fs : List (Option (Verif.Listen.Filter NodeId (Nat × Val) Pl))) (n : NodeId) :
    ∃ T, toldTo P fs none s0 s1 = some T ∧ (lastTold n T).getD (text (s0.st n)) = text (s1.st n) := by
  obtain ⟨l, hl, _⟩ := Tracks.continues hc h0
  exact states_log h0 (Continues.reach hc h0) hl fs n

/-- C152, filters: a listener that has asked for some states only still knows, whenever the executive is idle, which nodes are in which of those states: the last transition it was told of leads to the
state of the node, if the node is in one of those states, and to none of those states otherwise. -/
theorem c152_filtered {s0 s1 : St Val Env} (h0 : Reach P .idle s0) (hc : Continues P (.idle, s0) (.idle, s1))
    (fs : List (Option (Verif.Listen.Filter NodeId (Nat × Val) Pl))) (e : Enabled) (n : NodeId) :
    ∃ T, toldTo P fs (some (toFilter e)) s0 s1 = some T ∧
      (e (text (s1.st n)) = true → (lastTold n T).getD (text (s0.st n)) = text (s1.st n)) ∧
      (e (text (s1.st n)) = false → e ((lastTold n T).getD (text (s0.st n))) = false) := by
  obtain ⟨l, hl, _⟩ := Tracks.continues hc h0
  exact filtered_log h0 (Continues.reach hc h0) hl fs e n

/-- C152, variables: whenever the executive is idle, a listener without a filter knows the value of every variable of which it was told an assignment (or retraction) since the node that declares it last
began to execute: the last value it was told. -/
theorem c152_variables {s0 s1 : St Val Env} (h0 : Reach P .idle s0) (hc : Continues P (.idle, s0) (.idle, s1))
    (fs : List (Option (Verif.Listen.Filter NodeId (Nat × Val) Pl))) (v : Nat) :
    ∃ T, toldTo P fs none s0 s1 = some T ∧ (followVar P v T none = none ∨ followVar P v T none = some (s1.vars v)) ∧
      (followVar P v T (some (s0.vars v)) = none ∨ followVar P v T (some (s0.vars v)) = some (s1.vars v)) := by
  have h1 : Reach P .idle s1 := Continues.reach hc h0
  obtain ⟨l, hl, ht⟩ := Tracks.continues hc h0
  refine ⟨_, told_log h0 h1 hl fs none, ?_⟩
  have e : ∀ T : Told Val Pl, T.filter (passes none) = T := by
    intro T; apply List.filter_eq_self.2; intro a _; rfl
  rw [e, fol_eq, fol_eq]
  exact ⟨ht v none (.inl rfl), ht v _ (.inr rfl)⟩

/-- C152, names: the states are reported under their own names, so that different states are never confused. -/
theorem c152_names : (∀ a b, text a = text b → a = b) ∧
    Verif.Text.stateName (text .inactive) = "INACTIVE" ∧ Verif.Text.stateName (text .waiting) = "WAITING" ∧ Verif.Text.stateName (text .executing) = "EXECUTING" ∧
    Verif.Text.stateName (text .iterationEnded) = "ITERATION_ENDED" ∧ Verif.Text.stateName (text .finished) = "FINISHED" ∧ Verif.Text.stateName (text .failing) = "FAILING" ∧
    Verif.Text.stateName (text .finishing) = "FINISHING" := by
  refine ⟨?_, by decide, by decide, by decide, by decide, by decide, by decide, by decide⟩
  intro a b
  cases a <;> cases b <;> simp [text]

/-- An execution: a listener for FINISHED and one without a filter; what both were told after two steps. -/
theorem c152_example : ∃ s, Reach demo .idle s ∧
    (toldTo (Pl := Nat) demo [none] (some (toFilter fun x => decide (x = .finished))) (Exec.init (fun _ => 0) 0) s).map (lastTold 1) = some (some .finished) ∧
    (toldTo (Pl := Nat) demo [] none (Exec.init (fun _ => 0) 0) s).map (lastTold 3) = some (some .finishing) ∧
    (toldTo (Pl := Nat) demo [] none (Exec.init (fun _ => 0) 0) s).map (followVar demo 0 · none) = some (some 7) := by
  obtain ⟨ph, s, h, hf⟩ := exists_run demo [.cmd (.ext 0 [0]), .macroStep, .macroStep, .macroStep] (fun _ => 0) 0
    (fun x => (x.1, (toldTo (Pl := Nat) demo [none] (some (toFilter fun x => decide (x = .finished))) (Exec.init (fun _ => 0) 0) x.2).map (lastTold 1),
      (toldTo (Pl := Nat) demo [] none (Exec.init (fun _ => 0) 0) x.2).map (lastTold 3),
      (toldTo (Pl := Nat) demo [] none (Exec.init (fun _ => 0) 0) x.2).map (followVar demo 0 · none))) (.idle, some (some .finished), some (some .finishing), some (some 7)) rfl
  simp only [Prod.mk.injEq] at hf
  obtain ⟨rfl, h2, h3, h4⟩ := hf
  exact ⟨s, h, h2, h3, h4⟩

end Verif.Follow
