import Verif.Command.Lemmas
import Verif.Props.Arbiter
import Mathlib.Data.List.Induction
/-!
C80-C84: commands, updates, handlers.
-/
namespace Verif.Command
set_option linter.unusedSimpArgs false
set_option linter.unnecessarySimpa false
open Verif.Arbiter (Request one)
variable {Env V : Type}

theorem run_snoc (d : Def Env V) (evs : List (Ev Env V)) (x : Ev Env V) : run d (evs ++ [x]) = (run d evs).bind (fun s => step d s x) := by
  unfold run
  rw [List.foldlM_append]
  cases List.foldlM (step d) {} evs <;> simp

/-- What holds of a command after a history. -/
structure Inv (d : Def Env V) (evs : List (Ev Env V)) (s : St V) : Prop where
  consts : Consts d s
  active : s.active = (running evs).isSome
  fixed : ∀ e l, running evs = some (e, l) → Fixed d e s ∧ lastExecution evs = l ∧ s.abort = (abortAcks l).getLast?.getD false
  counts : (s.ackCount : Int) = watchers evs + (if s.active then 1 else 0)
  aborts : s.abortCount = if s.active then (if s.failing then 2 else 1) else 0
  failing : s.failing = true → s.active = true
  handle : s.handle = (handles (lastExecution evs)).getLast?.getD noHandle
  valid : ∀ h ∈ handles (lastExecution evs), h > noHandle ∧ h < handleMax
  assigned : s.assigned = if d.dest then returnsWhileRunning evs else []

theorem running_snoc (evs : List (Ev Env V)) (x : Ev Env V) : running (evs ++ [x]) = (match x with
    | .start e => some (e, [])
    | .leave => none
    | x => (running evs).map (fun p => (p.1, p.2 ++ [x]))) := by
  unfold running; rw [List.foldl_append]; rfl

theorem watchers_snoc (evs : List (Ev Env V)) (x : Ev Env V) :
    watchers (evs ++ [x]) = watchers evs + (match x with | .watch => 1 | .unwatch => -1 | _ => 0) := by
  unfold watchers; cases x <;> simp

theorem flag_last (evs : List (Ev Env V)) : (evs.foldl (fun (r : Bool × List (Ev Env V)) ev => match ev with
    | .start _ => (true, [])
    | .leave => (false, r.2)
    | x => (r.1, if r.1 then r.2 ++ [x] else r.2)) (false, [])).1 = (running evs).isSome := by
  induction evs using List.reverseRecOn with
  | nil => rfl
  | append_singleton l x ih =>
    rw [running_snoc, List.foldl_append]
    cases x <;> simp [ih]

theorem lastExecution_snoc (evs : List (Ev Env V)) (x : Ev Env V) : lastExecution (evs ++ [x]) = (match x with
    | .start _ => []
    | .leave => lastExecution evs
    | x => if (running evs).isSome then lastExecution evs ++ [x] else lastExecution evs) := by
  rw [← flag_last]
  unfold lastExecution
  rw [List.foldl_append]
  cases x <;> rfl

theorem flag_ret (evs : List (Ev Env V)) : (evs.foldl (fun (r : Bool × List V) ev => match ev with
    | .start _ => (true, r.2)
    | .leave => (false, r.2)
    | .ret v => (r.1, if r.1 then r.2 ++ [v] else r.2)
    | _ => r) (false, [])).1 = (running evs).isSome := by
  induction evs using List.reverseRecOn with
  | nil => rfl
  | append_singleton l x ih =>
    rw [running_snoc, List.foldl_append]
    cases x <;> simp [ih]

theorem returns_snoc (evs : List (Ev Env V)) (x : Ev Env V) : returnsWhileRunning (evs ++ [x]) = (match x with
    | .ret v => if (running evs).isSome then returnsWhileRunning evs ++ [v] else returnsWhileRunning evs
    | _ => returnsWhileRunning evs) := by
  rw [← flag_ret]
  unfold returnsWhileRunning
  rw [List.foldl_append]
  cases x <;> rfl

/-- Effect of an event on the number of references. -/
def watchDelta : Ev Env V → Int | .watch => 1 | .unwatch => -1 | _ => 0
/-- The acknowledgement of an abort, or what there was. -/
def abortOr (b : Bool) : Ev Env V → Bool | .abortAck b => b | _ => b
/-- The acknowledged handle, or what there was. -/
def handleOr (h : Nat) : Ev Env V → Nat | .ack h => h | _ => h
/-- The values assigned and the returned one. -/
def retOr (l : List V) : Ev Env V → List V | .ret v => l ++ [v] | _ => l

/-- An event that is neither a start nor a leave and leaves the evaluated parts and the flags alone. -/
theorem Inv.quiet {d : Def Env V} {evs : List (Ev Env V)} {s : St V} (hi : Inv d evs s) (x : Ev Env V) (hx : ∀ e, x ≠ .start e) (hl : x ≠ .leave) {s' : St V}
    (e1 : Consts d s') (e2 : s'.active = s.active)
    (e3 : ∀ e, Fixed d e s → Fixed d e s')
    (e4 : (s'.ackCount : Int) = s.ackCount + watchDelta x)
    (e5 : s'.abortCount = if s'.active then (if s'.failing then 2 else 1) else 0) (e6 : s'.failing = true → s'.active = true)
    (e7 : s.active = true → s'.abort = abortOr s.abort x)
    (e8 : s'.handle = if s.active then handleOr s.handle x else s.handle)
    (e9 : s.active = true → ∀ h, x = .ack h → h > noHandle ∧ h < handleMax)
    (e10 : s'.assigned = if s.active ∧ d.dest then retOr s.assigned x else s.assigned) :
    Inv d (evs ++ [x]) s' := by
  have hr : running (evs ++ [x]) = (running evs).map (fun p => (p.1, p.2 ++ [x])) := by
    rw [running_snoc]; cases x <;> first | rfl | exact absurd rfl (hx _) | exact absurd rfl hl
  have hle : lastExecution (evs ++ [x]) = if (running evs).isSome then lastExecution evs ++ [x] else lastExecution evs := by
    rw [lastExecution_snoc]; cases x <;> first | rfl | exact absurd rfl (hx _) | exact absurd rfl hl
  have ha := hi.active
  refine ⟨e1, ?_, ?_, ?_, e5, e6, ?_, ?_, ?_⟩
  · rw [e2, ha, hr]; simp
  · intro e l h
    rw [hr] at h
    obtain ⟨⟨e', l'⟩, h1, h2⟩ := Option.map_eq_some_iff.mp h
    simp only [Prod.mk.injEq] at h2
    obtain ⟨rfl, rfl⟩ := h2
    obtain ⟨f1, f2, f3⟩ := hi.fixed _ _ h1
    refine ⟨e3 _ f1, ?_, ?_⟩
    · rw [hle, h1, f2]; rfl
    · rw [e7 (by rw [ha, h1]; rfl), f3]
      unfold abortAcks
      cases x <;> simp [abortOr]
  · rw [e4, hi.counts, watchers_snoc, e2]; cases x <;> simp only [watchDelta] <;> omega
  · rw [e8, hle, ha, hi.handle]
    unfold handles
    cases (running evs).isSome <;> simp only [Bool.false_eq_true, if_false, if_true]
    cases x <;> simp [handleOr]
  · rw [hle]
    intro h hh
    split at hh
    · rename_i hs
      unfold handles at hh
      rw [List.filterMap_append, List.mem_append] at hh
      rcases hh with hh | hh
      · exact hi.valid h hh
      · cases x <;> simp at hh
        exact e9 (ha.trans hs) h (by rw [hh])
    · exact hi.valid h hh
  · rw [e10, returns_snoc, ha, hi.assigned]
    cases d.dest <;> cases (running evs).isSome <;> simp
    all_goals cases x <;> simp [retOr]

theorem inv_step {d : Def Env V} {evs : List (Ev Env V)} {s s' : St V} {x : Ev Env V} (hi : Inv d evs s) (h : step d s x = some s') :
    Inv d (evs ++ [x]) s' := by
  cases x with
  | start e =>
    obtain ⟨a0, a1, a2, a3, a4, a5, a6, a7, a8, a9, a10, a11⟩ := start_spec hi.consts h
    have hr : running (evs ++ [.start e]) = some (e, []) := by rw [running_snoc]
    have hle : lastExecution (evs ++ [.start e]) = [] := by rw [lastExecution_snoc]
    have hf : s.failing = false := by
      cases hf : s.failing
      · rfl
      · rw [hi.failing hf] at a0; cases a0
    have hc : s.abortCount = 0 := by rw [hi.aborts, a0]; rfl
    refine ⟨a1, by rw [a4, hr]; rfl, ?_, ?_, ?_, fun _ => a4, ?_, ?_, ?_⟩
    · intro e' l h
      rw [hr] at h
      simp only [Option.some.injEq, Prod.mk.injEq] at h
      obtain ⟨rfl, rfl⟩ := h
      exact ⟨a2, hle, by rw [a8, hc]; rfl⟩
    · have := hi.counts
      rw [a0] at this
      rw [a6, a4, watchers_snoc]
      simp only [if_true, Bool.false_eq_true, if_false] at this ⊢
      omega
    · rw [a7, a4, a9, hf, hc]; rfl
    · rw [a5, hle]; rfl
    · rw [hle]; intro h hh; simp [handles] at hh
    · rw [a11, hi.assigned, returns_snoc]
  | leave =>
    have hr : running (evs ++ [.leave]) = none := by rw [running_snoc]
    have hle : lastExecution (evs ++ [.leave]) = lastExecution evs := by rw [lastExecution_snoc]
    have key : ∀ t : St V, Consts d t → t.active = s.active → t.abortCount = (if s.active then 1 else 0) → t.ackCount = s.ackCount → t.handle = s.handle → t.assigned = s.assigned →
        t.failing = false → deactivate t = some s' → Inv d (evs ++ [.leave]) s' := by
      intro t k1 t1 t2 t3 t4 t5 t6 hd
      unfold deactivate at hd
      split at hd
      · cases hd
      rename_i hc
      simp only [Bool.not_eq_true', Bool.or_eq_true, decide_eq_true_eq, not_or, Bool.not_eq_false] at hc
      obtain ⟨⟨c1, c2⟩, c3⟩ := hc
      simp only [Option.some.injEq] at hd
      have hk : Consts d s' ∧ s'.active = false ∧ s'.abortCount = t.abortCount - 1 ∧ s'.ackCount = t.ackCount - 1 ∧ s'.handle = t.handle ∧ s'.assigned = t.assigned ∧
          s'.failing = t.failing := by
        subst hd
        have n := k1.name
        have a := k1.args
        have r := k1.res
        have u := k1.unchecked
        cases hn : t.nameConst <;> cases ha : t.argsConst <;> cases hr : t.resConst <;>
          simp only [hn, ha, hr, if_true, if_false, Bool.false_eq_true] at n a r u ⊢
        all_goals
          refine ⟨⟨?_, ?_, ?_, ?_⟩, by first | rfl | trivial, by first | rfl | trivial, by first | rfl | trivial, by first | rfl | trivial, by first | rfl | trivial, by first | rfl | trivial⟩
          · intro h; first | exact u h | simpa using u h
          · intro h; simpa using n h
          · intro h; simpa using a h
          · intro h; simpa using r h
      obtain ⟨h1, h2, h3, h4, h5, h6, h7⟩ := hk
      have sa : s.active = true := t1 ▸ c1
      refine ⟨h1, by rw [h2, hr]; rfl, ?_, ?_, ?_, ?_, ?_, ?_, ?_⟩
      · intro e l h; rw [hr] at h; cases h
      · have := hi.counts
        rw [sa] at this
        rw [h4, h2, t3, watchers_snoc]
        simp only [if_true, Bool.false_eq_true, if_false] at this ⊢
        omega
      · rw [h3, h2, t2, sa]; rfl
      · rw [h7, t6]; intro h; cases h
      · rw [h5, t4, hle]; exact hi.handle
      · rw [hle]; exact hi.valid
      · rw [h6, t5, hi.assigned, returns_snoc]
    change leave s = some s' at h
    unfold leave at h
    have ab := hi.aborts
    split at h
    · rename_i hf
      split at h
      · cases h
      · rw [hf, hi.failing hf] at ab
        refine key { s with failing := false, abortCount := s.abortCount - 1 } ⟨hi.consts.1, hi.consts.2, hi.consts.3, hi.consts.4⟩ rfl ?_ rfl rfl rfl rfl h
        show s.abortCount - 1 = _
        rw [ab, hi.failing hf]; rfl
    · rename_i hf
      refine key s hi.consts rfl ?_ rfl rfl rfl (by simpa using hf) h
      rw [ab]
      simp [hf]
  | fail =>
    change fail s = some s' at h
    unfold fail at h
    split at h
    · cases h
    rename_i hc
    simp only [Bool.or_eq_true, Bool.not_eq_true', not_or, Bool.not_eq_true, Bool.not_eq_false] at hc
    simp only [Option.some.injEq] at h
    subst h
    have ab := hi.aborts
    rw [hc.1, hc.2] at ab
    simp only [Bool.false_eq_true, if_false, if_true] at ab
    refine hi.quiet .fail (by simp) (by simp) ⟨hi.consts.1, hi.consts.2, hi.consts.3, hi.consts.4⟩ rfl (fun e f => ⟨f.1, f.2, f.3⟩) ?_ ?_ ?_ ?_ ?_ ?_ ?_
    · simp [abortOr, handleOr, retOr, watchDelta, activateAbort]
    · simp [abortOr, handleOr, retOr, watchDelta, activateAbort, hc.2, ab]
    · intro _; exact hc.2
    · intro _; simp [abortOr, handleOr, retOr, watchDelta, activateAbort, ab]
    · simp [abortOr, handleOr, retOr, watchDelta, activateAbort]
    · intro _ h hh; cases hh
    · simp [abortOr, handleOr, retOr, watchDelta, activateAbort]
  | ack n =>
    change setHandle n s = some s' at h
    unfold setHandle at h
    split at h
    · rename_i hc
      simp only [Option.some.injEq] at h
      subst h
      have hc : s.active = false := by simpa using hc
      refine hi.quiet (.ack n) (by simp) (by simp) hi.consts rfl (fun e f => f) (by simp [watchDelta]) hi.aborts hi.failing ?_ ?_ ?_ ?_ <;> simp [abortOr, handleOr, retOr, hc]
    · rename_i hc
      have hc : s.active = true := by simpa using hc
      split at h
      · rename_i hv
        simp only [Option.some.injEq] at h
        subst h
        refine hi.quiet (.ack n) (by simp) (by simp) ⟨hi.consts.1, hi.consts.2, hi.consts.3, hi.consts.4⟩ rfl (fun e f => ⟨f.1, f.2, f.3⟩) (by simp [watchDelta]) hi.aborts hi.failing ?_ ?_ ?_ ?_
        · simp [abortOr, handleOr, retOr]
        · simp [abortOr, handleOr, retOr, hc]
        · intro _ h hh; cases hh; exact hv
        · simp [abortOr, handleOr, retOr]
      · cases h
  | ret v =>
    simp only [step, Option.some.injEq] at h
    subst h
    unfold returnValue
    split
    · rename_i hc
      refine hi.quiet (.ret v) (by simp) (by simp) hi.consts rfl (fun e f => f) (by simp [watchDelta]) hi.aborts hi.failing ?_ ?_ ?_ ?_
      · simp [abortOr, handleOr, retOr]
      · simp [abortOr, handleOr, retOr]
      · intro _ h hh; cases hh
      · simp only [Bool.or_eq_true, Bool.not_eq_true'] at hc
        rcases hc with hc | hc <;> simp [abortOr, handleOr, retOr, hc]
    · rename_i hc
      simp only [Bool.or_eq_true, Bool.not_eq_true', not_or, Bool.not_eq_false] at hc
      refine hi.quiet (.ret v) (by simp) (by simp) ⟨hi.consts.1, hi.consts.2, hi.consts.3, hi.consts.4⟩ rfl (fun e f => ⟨f.1, f.2, f.3⟩) (by simp [watchDelta]) hi.aborts hi.failing ?_ ?_ ?_ ?_
      · simp [abortOr, handleOr, retOr]
      · simp [abortOr, handleOr, retOr]
      · intro _ h hh; cases hh
      · simp [abortOr, handleOr, retOr, hc]
  | abortAck b =>
    simp only [step, Option.some.injEq] at h
    subst h
    unfold ackAbort
    have ab := hi.aborts
    split
    · rename_i hc
      have hc : s.active = false := by simpa using hc
      refine hi.quiet (.abortAck b) (by simp) (by simp) hi.consts rfl (fun e f => f) (by simp [watchDelta]) hi.aborts hi.failing ?_ ?_ ?_ ?_ <;> simp [abortOr, handleOr, retOr, hc]
    · rename_i hc
      have hc : s.active = true := by simpa using hc
      have hn : s.abortCount ≠ 0 := by rw [ab, hc]; cases s.failing <;> decide
      split
      · refine hi.quiet (.abortAck b) (by simp) (by simp) ⟨hi.consts.1, hi.consts.2, hi.consts.3, hi.consts.4⟩ rfl (fun e f => ⟨f.1, f.2, f.3⟩) (by simp [watchDelta]) hi.aborts hi.failing ?_ ?_ ?_ ?_ <;> simp [abortOr, handleOr, retOr]
      · rename_i hb
        have hb : s.abort = b := by simpa [hn] using hb
        refine hi.quiet (.abortAck b) (by simp) (by simp) hi.consts rfl (fun e f => f) (by simp [watchDelta]) hi.aborts hi.failing ?_ ?_ ?_ ?_ <;> simp [abortOr, handleOr, retOr, hb]
  | watch =>
    simp only [step, Option.some.injEq] at h
    subst h
    refine hi.quiet .watch (by simp) (by simp) ⟨hi.consts.1, hi.consts.2, hi.consts.3, hi.consts.4⟩ rfl (fun e f => ⟨f.1, f.2, f.3⟩) (by simp [watchDelta]) hi.aborts hi.failing ?_ ?_ ?_ ?_ <;> simp [abortOr, handleOr, retOr]
  | unwatch =>
    simp only [step] at h
    split at h
    · cases h
    simp only [Option.some.injEq] at h
    subst h
    refine hi.quiet .unwatch (by simp) (by simp) ⟨hi.consts.1, hi.consts.2, hi.consts.3, hi.consts.4⟩ rfl (fun e f => ⟨f.1, f.2, f.3⟩) ?_ hi.aborts hi.failing ?_ ?_ ?_ ?_
    · simp only [watchDelta]; omega
    all_goals simp [abortOr, handleOr, retOr]

theorem inv_run {d : Def Env V} {evs : List (Ev Env V)} {s : St V} (h : run d evs = some s) : Inv d evs s := by
  induction evs using List.reverseRecOn generalizing s with
  | nil =>
    simp only [run, List.foldlM_nil, Option.pure_def, Option.some.injEq] at h
    subst h
    refine ⟨⟨fun _ => ⟨rfl, rfl⟩, ?_, ?_, ?_⟩, rfl, ?_, rfl, rfl, ?_, rfl, ?_, ?_⟩
    · intro h; cases h
    · intro h; cases h
    · intro h; cases h
    · intro e l h; cases h
    · intro h; cases h
    · intro h hh; simp [lastExecution, handles] at hh
    · simp [returnsWhileRunning]
  | append_singleton l x ih =>
    rw [run_snoc] at h
    obtain ⟨t, h1, h2⟩ := Option.bind_eq_some_iff.mp h
    exact inv_step (ih h1) h2

/-! ## C80 -/

/-- **C80.**  While a command is being executed, after any history, what an adapter gets from it is its name and arguments as they were when its node started – a failure if the
name was unknown, never a name or argument of another time – and the resources the arbiter sees are what the resource expressions were then. -/
theorem c80_sent (d : Def Env V) (evs : List (Ev Env V)) (s : St V) (h : run d evs = some s) (e : Env) (l : List (Ev Env V)) (hr : running evs = some (e, l)) :
    getCommand s = (d.name.val e).map (fun n => (n, d.args.map (fun a => a.val e))) ∧
    ∃ rs, getResourceValues s = some rs ∧ d.res.map (wanted e) = rs.map some := by
  obtain ⟨f, -, -⟩ := (inv_run h).fixed e l hr
  constructor
  · unfold getCommand
    rw [f.args.1, f.args.2]
    cases hv : d.name.val e with
    | none =>
      have := f.name.1
      rw [hv] at this
      simp [this]
    | some n =>
      have h1 := f.name.1
      rw [hv] at h1
      have h2 := f.name.2 (by simpa using h1)
      rw [hv] at h2
      simp at h1 h2
      simp [h1, h2]
  · refine ⟨s.resVals, by unfold getResourceValues; rw [f.res.1]; rfl, ?_⟩
    have h2 := f.res.2
    have key : ∀ (l : List (ResSpec Env)) (rs : List Request), l.mapM (fixResource e) = some rs → l.map (wanted e) = rs.map some := by
      intro l
      induction l with
      | nil => intro rs h; simp at h; simp [← h]
      | cons a l ih =>
        intro rs h
        rw [List.mapM_cons] at h
        simp only [Option.bind_eq_bind] at h
        obtain ⟨r, h1, h⟩ := Option.bind_eq_some_iff.mp h
        obtain ⟨rs', h2, h⟩ := Option.bind_eq_some_iff.mp h
        simp only [Option.pure_def, Option.some.injEq] at h
        subst h
        rw [List.map_cons, List.map_cons, ih rs' h2, ← fixResource_eq, h1]
    exact key _ _ h2

theorem mapM_isSome (e : Env) (l : List (ResSpec Env)) : (l.mapM (fixResource e)).isSome = true ↔ ∀ r ∈ l, (wanted e r).isSome = true := by
  induction l with
  | nil => simp
  | cons a l ih =>
    rw [List.mapM_cons]
    simp only [Option.bind_eq_bind, List.mem_cons, forall_eq_or_imp, ← ih]
    rw [← fixResource_eq]
    cases fixResource e a <;> cases l.mapM (fixResource e) <;> simp

theorem fixResources_isSome (d : Def Env V) (e : Env) (s : St V) : (fixResources d e s).isSome = (d.res.mapM (fixResource e)).isSome := by
  unfold fixResources
  cases d.res.mapM (fixResource e) <;> rfl

/-- **C80.**  A command that is not being executed can always be started, unless something in its resource requests is unknown; then the start is an error. -/
theorem c80_start (d : Def Env V) (evs : List (Ev Env V)) (s : St V) (h : run d evs = some s) (hr : running evs = none) (e : Env) :
    (run d (evs ++ [.start e])).isSome = true ↔ ∀ r ∈ d.res, (wanted e r).isSome = true := by
  have hi := inv_run h
  have ha : s.active = false := by rw [hi.active, hr]; rfl
  rw [run_snoc, h, ← mapM_isSome]
  constructor
  · intro hs
    obtain ⟨s', hs'⟩ := Option.isSome_iff_exists.mp hs
    obtain ⟨-, -, f, -⟩ := start_spec hi.consts hs'
    rw [f.res.2]; rfl
  · intro hm
    show (start d e s).isSome = true
    unfold start activate
    rw [if_neg (by simp [ha])]
    have h1 : (ensureChecked d e (activateAbort { s with handle := noHandle, ackCount := s.ackCount + 1 })).isSome = true := by
      unfold ensureChecked
      split
      · rfl
      · unfold checkConstant
        cases d.res.all (·.isConst) <;> simp only [if_true, if_false, Bool.false_eq_true, Option.bind_eq_bind, Option.bind_some, Option.isSome_some]
        cases hz : fixResources d e _ with
        | none =>
          have := fixResources_isSome d e _ ▸ congrArg Option.isSome hz
          rw [hm] at this; cases this
        | some t => rfl
    obtain ⟨t, ht⟩ := Option.isSome_iff_exists.mp h1
    rw [ht]
    simp only [Option.map_some, Option.bind_some]
    unfold fixValues
    have hact : (unfix t).active = true := by
      unfold unfix; rfl
    rw [hact]
    have fin : ∀ u : St V, (if u.resFixed = true then some u else fixResources d e u).isSome = true := by
      intro u
      split
      · rfl
      · rw [fixResources_isSome]; exact hm
    exact fin _

/-! ## C81 -/

/-- **C81.**  While a command is being executed a reference to its handle reads the last handle acknowledged since the start of this execution and is unknown if there was none; the
node's action is complete exactly if there was one; its abort is complete exactly if the last acknowledgement of an abort since the start says so. -/
theorem c81_running (d : Def Env V) (evs : List (Ev Env V)) (s : St V) (h : run d evs = some s) (e : Env) (l : List (Ev Env V)) (hr : running evs = some (e, l))
    (hw : 0 ≤ watchers evs) :
    handleValue s = (handles l).getLast? ∧ (handleKnown s = true ↔ handles l ≠ []) ∧ (s.abort = true ↔ (abortAcks l).getLast? = some true) ∧
    (interruptible s = true ↔ (handles l).getLast? = some denied ∨ (handles l).getLast? = some failed ∨ (handles l).getLast? = some interfaceError) := by
  have hi := inv_run h
  obtain ⟨-, f2, f3⟩ := hi.fixed e l hr
  have hh := hi.handle
  have hv := hi.valid
  rw [f2] at hh hv
  have hc := hi.counts
  rw [hi.active, hr] at hc
  simp only [Option.isSome_some, if_true] at hc
  have hz : s.ackCount ≠ 0 := by omega
  unfold handleValue handleKnown interruptible
  rw [hh, f3]
  have hb : ∀ x : Option Bool, (x.getD false = true ↔ x = some true) := by
    intro x; cases x <;> simp
  cases hg : (handles l).getLast? with
  | none =>
    have : handles l = [] := List.getLast?_eq_none_iff.mp hg
    refine ⟨by simp [hz], by simp [this], hb _, ?_⟩
    simp [noHandle, denied, failed, interfaceError]
  | some x =>
    have hx := hv x (List.mem_of_getLast? hg)
    have hne : x ≠ noHandle := by omega
    refine ⟨by simp [hz, hne], ?_, hb _, ?_⟩
    · have : handles l ≠ [] := by intro h; rw [h] at hg; cases hg
      simp [hne, this]
    · simp [or_assoc]

/-- **C81.**  After the execution a reference from elsewhere that has been active all along keeps reading the last handle of that execution, until the next start. -/
theorem c81_over (d : Def Env V) (evs : List (Ev Env V)) (s : St V) (h : run d evs = some s) (hr : running evs = none) (hw : 0 < watchers evs) :
    handleValue s = (handles (lastExecution evs)).getLast? := by
  have hi := inv_run h
  have hc := hi.counts
  rw [hi.active, hr] at hc
  simp only [Option.isSome_none, Bool.false_eq_true, if_false] at hc
  have hz : s.ackCount ≠ 0 := by omega
  unfold handleValue
  rw [hi.handle]
  cases hg : (handles (lastExecution evs)).getLast? with
  | none => simp [hz]
  | some x =>
    have hne : x ≠ noHandle := by
      have := hi.valid x (List.mem_of_getLast? hg); omega
    simp [hz, hne]

/-- **C81.**  The values written to the destination are exactly those returned during executions, in order. -/
theorem c81_returned (d : Def Env V) (evs : List (Ev Env V)) (s : St V) (h : run d evs = some s) :
    s.assigned = if d.dest then returnsWhileRunning evs else [] := (inv_run h).assigned

/-- **C81, partial.**  A change of what references elsewhere read is announced, at every event that is not a start.  Missing: the start, see `c81_restart_silent`. -/
theorem c81_announced_partial (d : Def Env V) (evs : List (Ev Env V)) (s s' : St V) (x : Ev Env V) (h : run d evs = some s) (hx : step d s x = some s')
    (hs : ∀ e, x ≠ .start e) (hw : 0 < watchers evs) (hw' : 0 < watchers (evs ++ [x])) (hne : handleValue s' ≠ handleValue s) : s'.published = s.published + 1 := by
  have hi := inv_run h
  have hi' := inv_step hi hx
  have same : s'.handle = s.handle → False := by
    intro e
    apply hne
    have c1 := hi.counts
    have c2 := hi'.counts
    have z1 : s.ackCount ≠ 0 := by split at c1 <;> omega
    have z2 : s'.ackCount ≠ 0 := by split at c2 <;> omega
    unfold handleValue
    rw [e]; simp [z1, z2]
  cases x with
  | start e => exact absurd rfl (hs e)
  | ack n =>
    change setHandle n s = some s' at hx
    unfold setHandle at hx
    split at hx
    · cases hx; exact absurd rfl hne
    · split at hx
      · cases hx; rfl
      · cases hx
  | leave =>
    refine (same ?_).elim
    rw [hi'.handle, hi.handle, lastExecution_snoc]
  | fail =>
    refine (same ?_).elim
    change fail s = some s' at hx
    unfold fail at hx
    split at hx
    · cases hx
    · cases hx; rfl
  | ret v =>
    refine (same ?_).elim
    cases hx
    unfold returnValue
    split <;> rfl
  | abortAck b =>
    refine (same ?_).elim
    cases hx
    unfold ackAbort
    split
    · rfl
    · split <;> rfl
  | watch => refine (same ?_).elim; cases hx; rfl
  | unwatch =>
    refine (same ?_).elim
    simp only [step] at hx
    split at hx
    · cases hx
    · cases hx; rfl

theorem enqueued_counted (x : Ev Env V) : enqueued x = counted x := by
  cases x <;> simp only [enqueued, counted]
  rename_i h
  congr 1
  by_cases h1 : 48 < h ∧ h < 58
  · have e1 : ¬ h ≤ noHandle := Nat.not_le.mpr h1.1
    have e2 : ¬ h ≥ handleMax := Nat.not_le.mpr h1.2
    rw [if_pos h1, if_neg (by simp [e1, e2])]
  · rw [if_neg h1]
    by_cases e1 : h ≤ noHandle
    · rw [if_pos (by simp [e1])]; rfl
    · have e2 : h ≥ handleMax := Nat.not_lt.mp (fun h2 => h1 ⟨Nat.not_le.mp e1, h2⟩)
      rw [if_pos (by simp [e2])]; rfl

/-- **C81, the queue.**  Through the interface, for every interleaving of what the plan does with responses posted by adapters and the processing of the queue, the command is
as if the responses had happened when they were processed, in the order of posting; an invalid handle counts as COMMAND_INTERFACE_ERROR. -/
theorem c81_queue (d : Def Env V) (evs : List (QEv Env V)) :
    qrun d evs = (run d (delivered evs).1).map (fun s => (s, (delivered evs).2)) := by
  induction evs using List.reverseRecOn with
  | nil => rfl
  | append_singleton l x ih =>
    have h1 : qrun d (l ++ [x]) = (qrun d l).bind (fun s => qstep d s x) := by
      unfold qrun
      rw [List.foldlM_append]
      cases List.foldlM (qstep d) ({}, []) l <;> simp
    have h2 : delivered (l ++ [x]) = (match (generalizing := false) x with
        | .plan x => ((delivered l).1 ++ [x], (delivered l).2)
        | .post x => ((delivered l).1, (delivered l).2 ++ [counted x])
        | .process => ((delivered l).1 ++ (delivered l).2, [])) := by
      unfold delivered; rw [List.foldl_append]; cases x <;> rfl
    rw [h1, h2, ih]
    cases x with
    | plan y =>
      simp only [run_snoc]
      cases run d (delivered l).1 with
      | none => rfl
      | some s => simp [qstep]
    | post y =>
      cases run d (delivered l).1 with
      | none => rfl
      | some s => simp [qstep, enqueued_counted]
    | process =>
      have : run d ((delivered l).1 ++ (delivered l).2) = (run d (delivered l).1).bind (fun s => (delivered l).2.foldlM (step d) s) := by
        unfold run
        rw [List.foldlM_append]; rfl
      simp only [this]
      cases run d (delivered l).1 with
      | none => rfl
      | some s => simp [qstep]

/-- **C81.**  No response that comes through the queue is an error, in any state. -/
theorem c81_no_error (d : Def Env V) (s : St V) (h : Nat) (v : V) (b : Bool) :
    (step d s (counted (.ack h))).isSome = true ∧ (step d s (.ret v)).isSome = true ∧ (step d s (.abortAck b)).isSome = true := by
  refine ⟨?_, rfl, rfl⟩
  simp only [counted, step]
  unfold setHandle
  split
  · rfl
  · rw [if_pos]
    · rfl
    · simp only [noHandle, handleMax]
      split <;> omega

/-- A demo command: name and one argument vary with the environment, a constant resource. -/
def demo : Def Nat Nat where
  name := ⟨false, fun e => if e = 0 then none else some (if e = 1 then "a" else "b"), by intro h; cases h⟩
  args := [⟨true, fun _ => 7, fun _ _ _ => rfl⟩, ⟨false, fun e => e + 10, by intro h; cases h⟩]
  res := [⟨⟨true, fun _ => some "r", fun _ _ _ => rfl⟩, ⟨true, fun _ => some 3, fun _ _ _ => rfl⟩, none, none⟩]
  dest := true

/-- Two executions: the second sends what its own environment gives; during the second the handle of the first is gone. -/
theorem c80_example : ∃ s, run demo [.start 1, .ack 54, .ret 5, .leave, .ret 6, .start 2, .ret 8] = some s ∧ getCommand s = some ("b", [7, 12]) ∧
    getResourceValues s = some [⟨"r", one, 3, true⟩] ∧ handleValue s = none ∧ s.assigned = [5, 8] := by
  exact ⟨_, rfl, by decide, rfl, by decide, by decide⟩

/-- An unknown name: the start is no error, but asking for the command is; and the name of the previous execution is not used. -/
theorem c80_unknown_name : ∃ s, run demo [.start 1, .leave, .start 0] = some s ∧ getCommand s = none := ⟨_, rfl, by decide⟩

/-- **C81, counterexample.**  At a restart a reference elsewhere changes from the old handle to unknown and nothing is announced. -/
theorem c81_restart_silent : ∃ s s', run demo [.watch, .start 1, .ack 54, .leave] = some s ∧ step demo s (.start 2) = some s' ∧
    handleValue s = some 54 ∧ handleValue s' = none ∧ s'.published = s.published := by
  exact ⟨_, _, rfl, rfl, by decide, by decide, by decide⟩

/-- **C81, counterexample.**  A response to one execution that is processed during the next completes the next: responses carry no execution. -/
theorem c81_late_response : ∃ s, qrun demo [.plan (.start 1), .post (.ack 54), .plan .leave, .plan (.start 2), .process] = some (s, []) ∧
    handleKnown s = true ∧ handleValue s = some 54 := ⟨_, rfl, by decide, by decide⟩

/-- **C81, counterexample.**  An acknowledgement of an abort counts even if it came before the abort; a later negative one undoes it. -/
theorem c81_abort_order : (∃ s, run demo [.start 1, .abortAck true, .fail] = some s ∧ s.abort = true) ∧
    ∃ s, run demo [.start 1, .fail, .abortAck true, .abortAck false] = some s ∧ s.abort = false := ⟨⟨_, rfl, by decide⟩, _, rfl, by decide⟩

/-- **C81, errors.**  If the handler of the command fails with an interface error, the command being executed is complete with that handle at once.  If the handler of the
abort does, the node is not told that the abort is complete: whatever it knew, it now waits for another acknowledgement. -/
theorem c81_errors (d : Def Env V) (evs : List (Ev Env V)) (s : St V) (h : run d evs = some s) (hr : (running evs).isSome = true) :
    (∃ s', executeCommand true s = some s' ∧ s'.handle = interfaceError ∧ handleKnown s' = true ∧ interruptible s' = true) ∧ (invokeAbort true s).abort = false := by
  have hi := inv_run h
  have ha := hi.active.trans hr
  constructor
  · refine ⟨{ s with handle := interfaceError, published := s.published + 1 }, ?_, rfl, rfl, rfl⟩
    unfold executeCommand setHandle
    simp [ha, interfaceError, noHandle, handleMax]
  · have hn : s.abortCount ≠ 0 := by rw [hi.aborts, ha]; cases s.failing <;> decide
    unfold invokeAbort ackAbort
    simp only [if_true, ha, Bool.not_true, Bool.false_eq_true, if_false]
    split
    · rfl
    · rename_i hb; simpa [hn] using hb

/-! ## C82 -/

theorem lookup_setPair {α : Type} (m : List (String × α)) (k k' : String) (v : α) : (setPair m k v).lookup k' = if k' = k then some v else m.lookup k' := by
  unfold setPair
  by_cases h : k' = k
  · subst h; simp
  · rw [if_neg h, List.lookup_cons]
    have : (k' == k) = false := by simpa using h
    rw [this]
    simp only
    induction m with
    | nil => rfl
    | cons p m ih =>
      by_cases hp : p.1 = k
      · have h2 : (k' == p.1) = false := by rw [hp]; simpa using h
        obtain ⟨a, b⟩ := p
        simp only at hp h2
        rw [List.filter_cons_of_neg (by simp [hp]), ih, List.lookup_cons, h2]
      · obtain ⟨a, b⟩ := p
        simp only at hp
        rw [List.filter_cons_of_pos (by simp [hp]), List.lookup_cons, List.lookup_cons, ih]

theorem lookup_setPairs {α : Type} (names : List String) (m : List (String × α)) (k : String) (v : α) :
    (names.foldl (fun m n => setPair m n v) m).lookup k = if k ∈ names then some v else m.lookup k := by
  induction names generalizing m with
  | nil => simp
  | cons n ns ih =>
    rw [List.foldl_cons, ih, lookup_setPair]
    by_cases h1 : k ∈ ns <;> by_cases h2 : k = n <;> simp [h1, h2]

/-- **C82.**  After any sequence of registrations, a command is executed and aborted by the handler last registered under its name, or if there is none by the default handler set
last, or if none was set by the built-in one; lookups likewise, and the two kinds do not interfere. -/
theorem c82_handlers {H : Type} (c0 l0 : H) (regs : List (Reg H)) (name : String) :
    (regs.foldl Registry.apply { defaultCommand := c0, defaultLookup := l0 }).commandHandler name =
      (match lastCommandReg name regs with | some h => h | none => (lastDefaultCommand regs).getD c0) ∧
    (regs.foldl Registry.apply { defaultCommand := c0, defaultLookup := l0 }).lookupHandler name =
      (match lastLookupReg name regs with | some h => h | none => (lastDefaultLookup regs).getD l0) := by
  have key : (regs.foldl Registry.apply { defaultCommand := c0, defaultLookup := l0 }).commands.lookup name = lastCommandReg name regs ∧
      (regs.foldl Registry.apply { defaultCommand := c0, defaultLookup := l0 }).lookups.lookup name = lastLookupReg name regs ∧
      (regs.foldl Registry.apply { defaultCommand := c0, defaultLookup := l0 }).defaultCommand = (lastDefaultCommand regs).getD c0 ∧
      (regs.foldl Registry.apply { defaultCommand := c0, defaultLookup := l0 }).defaultLookup = (lastDefaultLookup regs).getD l0 := by
    induction regs using List.reverseRecOn with
    | nil => exact ⟨rfl, rfl, rfl, rfl⟩
    | append_singleton l x ih =>
      rw [List.foldl_append]
      simp only [List.foldl_cons, List.foldl_nil]
      revert ih
      generalize l.foldl Registry.apply { defaultCommand := c0, defaultLookup := l0 } = r
      rintro ⟨i1, i2, i3, i4⟩
      unfold lastCommandReg lastLookupReg lastDefaultCommand lastDefaultLookup at *
      cases x with
      | command h ns =>
        refine ⟨?_, by simpa [Registry.apply] using i2, by simpa [Registry.apply] using i3, by simpa [Registry.apply] using i4⟩
        simp only [Registry.apply, lookup_setPairs, i1]
        by_cases hm : name ∈ ns <;> simp [hm]
      | lookup h ns =>
        refine ⟨by simpa [Registry.apply] using i1, ?_, by simpa [Registry.apply] using i3, by simpa [Registry.apply] using i4⟩
        simp only [Registry.apply, lookup_setPairs, i2]
        by_cases hm : name ∈ ns <;> simp [hm]
      | defaultCommand h => exact ⟨by simpa [Registry.apply] using i1, by simpa [Registry.apply] using i2, by simp [Registry.apply], by simpa [Registry.apply] using i4⟩
      | defaultLookup h => exact ⟨by simpa [Registry.apply] using i1, by simpa [Registry.apply] using i2, by simpa [Registry.apply] using i3, by simp [Registry.apply]⟩
  obtain ⟨k1, k2, k3, k4⟩ := key
  unfold Registry.commandHandler Registry.lookupHandler
  rw [k1, k2, k3, k4]
  exact ⟨rfl, rfl⟩

theorem c82_example : (List.foldl Registry.apply { defaultCommand := 0, defaultLookup := 0 }
      [.command 1 ["a", "b"], .defaultCommand 9, .lookup 4 ["a"], .command 2 ["b"]]).commandHandler <$> ["a", "b", "c"] = [1, 2, 9] := by decide

/-! ## C84: updates -/

theorem setPairs_lookup (l : List (String × Ex Env V)) (e : Env) (m : List (String × V)) (k : String) :
    (l.foldl (fun m p => setPair m p.1 (p.2.val e)) m).lookup k = match l.reverse.find? (fun p => p.1 == k) with
      | some p => some (p.2.val e)
      | none => m.lookup k := by
  induction l using List.reverseRecOn with
  | nil => rfl
  | append_singleton l p ih =>
    rw [List.foldl_append, List.reverse_append]
    simp only [List.foldl_cons, List.foldl_nil, List.reverse_singleton, List.singleton_append, lookup_setPair, ih, List.find?_cons]
    by_cases h : k = p.1
    · simp [h]
    · have : (p.1 == k) = false := by simpa using Ne.symm h
      rw [if_neg h, this]

theorem linked_eq (added : List (String × Ex Env V)) : linked added = added.reverse := by
  unfold linked
  have : ∀ acc : List (String × Ex Env V), added.foldl (fun l p => p :: l) acc = added.reverse ++ acc := by
    induction added with
    | nil => intro; rfl
    | cons a l ih => intro acc; simp [ih]
  simpa using this []

/-- What holds of an update after a history. -/
structure UInv (added : List (String × Ex Env V)) (evs : List (UEv Env)) (s : USt V) : Prop where
  count : s.ackCount = if (uRunning evs).isSome then 2 else 0
  fixed : ∀ e l, uRunning evs = some (e, l) → s.ack = (uAcks l).getLast?.getD false ∧
    ∀ k, s.pairs.lookup k = (added.find? (fun p => p.1 == k)).map (fun p => p.2.val e)
  keys : ∀ k, (∀ p ∈ added, p.1 ≠ k) → s.pairs.lookup k = none

theorem uRunning_snoc (evs : List (UEv Env)) (x : UEv Env) : uRunning (evs ++ [x]) = (match x with
    | .start e => some (e, [])
    | .leave => none
    | x => (uRunning evs).map (fun p => (p.1, p.2 ++ [x]))) := by
  unfold uRunning; rw [List.foldl_append]; rfl

theorem alternating_snoc (b : Bool) (evs : List (UEv Env)) (x : UEv Env) (h : UAlternating b (evs ++ [x])) : UAlternating b evs := by
  induction evs generalizing b with
  | nil => cases b <;> trivial
  | cons y l ih =>
    cases b <;> cases y <;> simp only [List.cons_append, UAlternating] at h ⊢ <;> exact ih _ h

theorem alternating_last (evs : List (UEv Env)) (x : UEv Env) (h : UAlternating false (evs ++ [x])) :
    (∀ e, x = .start e → uRunning evs = none) ∧ (x = .leave ∨ x = .fail → (uRunning evs).isSome = true) := by
  have key : ∀ (l : List (UEv Env)) (r : Option (Env × List (UEv Env))), UAlternating r.isSome (l ++ [x]) →
      let r' := l.foldl (fun r ev => match ev with
        | .start e => some (e, [])
        | .leave => none
        | x => r.map (fun p => (p.1, p.2 ++ [x]))) r
      (∀ e, x = .start e → r' = none) ∧ (x = .leave ∨ x = .fail → r'.isSome = true) := by
    intro l
    induction l with
    | nil =>
      intro r h
      cases r <;> cases x <;> simp_all [UAlternating]
    | cons y l ih =>
      intro r h
      rw [List.foldl_cons]
      apply ih
      cases r <;> cases y <;> simp_all [UAlternating]
  exact key evs none h

theorem uinv_run (added : List (String × Ex Env V)) (evs : List (UEv Env)) (ha : UAlternating false evs) :
    ∃ s, USt.run (V := V) added evs = some s ∧ UInv added evs s := by
  induction evs using List.reverseRecOn with
  | nil => exact ⟨{}, rfl, rfl, fun e l h => (by simp [uRunning] at h), fun _ _ => rfl⟩
  | append_singleton l x ih =>
    obtain ⟨s, h1, hi⟩ := ih (alternating_snoc _ _ _ ha)
    obtain ⟨al1, al2⟩ := alternating_last l x ha
    have hr : USt.run (V := V) added (l ++ [x]) = USt.step added s x := by
      unfold USt.run at h1 ⊢
      rw [List.foldlM_append, h1]; simp
    rw [hr]
    have hkeys : ∀ e k, (∀ p ∈ added, p.1 ≠ k) → (USt.fix added e s.activate.activate).pairs.lookup k = none := by
      intro e k hk
      have h2 : added.find? (fun p => p.1 == k) = none := by
        rw [List.find?_eq_none]; intro p hp; simpa using hk p hp
      simp only [USt.fix, USt.activate, linked_eq, setPairs_lookup, List.reverse_reverse, h2]
      exact hi.keys k hk
    cases x with
    | start e =>
      have hn := al1 e rfl
      have hc := hi.count
      rw [hn] at hc
      refine ⟨_, rfl, ?_, ?_, hkeys e⟩
      · rw [uRunning_snoc]; simp [USt.fix, USt.activate, hc]
      · intro e' l' h
        rw [uRunning_snoc] at h
        simp only [Option.some.injEq, Prod.mk.injEq] at h
        obtain ⟨rfl, rfl⟩ := h
        refine ⟨by simp [USt.fix, USt.activate, hc, uAcks], ?_⟩
        intro k
        simp only [USt.fix, USt.activate, linked_eq, setPairs_lookup, List.reverse_reverse]
        cases hf : added.find? (fun p => p.1 == k) with
        | some p => rfl
        | none =>
          exact hi.keys k (fun p hp => by simpa using List.find?_eq_none.mp hf p hp)
    | fail =>
      have hs := al2 (.inr rfl)
      have hc := hi.count
      rw [hs] at hc
      simp only [if_true] at hc
      refine ⟨{ s with ackCount := 2 }, ?_, ?_, ?_, hi.keys⟩
      · simp [USt.step, USt.deactivate, USt.activate, hc]
      · rw [uRunning_snoc]; simp [hs]
      · intro e' l' h
        rw [uRunning_snoc] at h
        obtain ⟨⟨e, l2⟩, h3, h4⟩ := Option.map_eq_some_iff.mp h
        simp only [Prod.mk.injEq] at h4
        obtain ⟨rfl, rfl⟩ := h4
        have := hi.fixed _ _ h3
        refine ⟨?_, this.2⟩
        rw [show uAcks (l2 ++ [UEv.fail]) = uAcks l2 by simp [uAcks]]; exact this.1
    | leave =>
      have hs := al2 (.inl rfl)
      have hc := hi.count
      rw [hs] at hc
      simp only [if_true] at hc
      refine ⟨{ s with ackCount := 0 }, ?_, ?_, ?_, hi.keys⟩
      · simp [USt.step, USt.deactivate, hc]
      · rw [uRunning_snoc]; rfl
      · intro e' l' h
        rw [uRunning_snoc] at h; cases h
    | ack b =>
      have hc := hi.count
      refine ⟨_, rfl, ?_, ?_, ?_⟩
      · rw [uRunning_snoc, Option.isSome_map, ← hc]
        unfold USt.acknowledge; split <;> rfl
      · intro e' l' h
        rw [uRunning_snoc] at h
        obtain ⟨⟨e, l2⟩, h3, h4⟩ := Option.map_eq_some_iff.mp h
        simp only [Prod.mk.injEq] at h4
        obtain ⟨rfl, rfl⟩ := h4
        rw [h3] at hc
        simp only [Option.isSome_some, if_true] at hc
        have := hi.fixed _ _ h3
        unfold USt.acknowledge
        rw [if_neg (by omega)]
        refine ⟨?_, this.2⟩
        rw [show uAcks (l2 ++ [UEv.ack b]) = uAcks l2 ++ [b] by simp [uAcks]]; simp
      · intro k hk
        unfold USt.acknowledge
        split <;> exact hi.keys k hk

/-- **C84.**  For every history in which the node starts, possibly goes to FAILING, and leaves, with acknowledgements at any time: nothing fails; while the update is being
executed the value sent under each name is what its expression was at the start (of the first pair with that name, and no other names are sent), and it counts as acknowledged exactly if the last acknowledgement since the start
says so. -/
theorem c84_update (added : List (String × Ex Env V)) (evs : List (UEv Env)) (ha : UAlternating false evs) :
    ∃ s, USt.run (V := V) added evs = some s ∧ ∀ e l, uRunning evs = some (e, l) →
      (s.ack = true ↔ (uAcks l).getLast? = some true) ∧ ∀ k, s.pairs.lookup k = (added.find? (fun p => p.1 == k)).map (fun p => p.2.val e) := by
  obtain ⟨s, h, hi⟩ := uinv_run (V := V) added evs ha
  refine ⟨s, h, fun e l hr => ?_⟩
  obtain ⟨h1, h2⟩ := hi.fixed e l hr
  refine ⟨?_, h2⟩
  rw [h1]
  cases (uAcks l).getLast? <;> simp

/-- Two executions; the acknowledgement of the first, late, completes the second. -/
theorem c84_example : ∃ s, USt.run [("x", ⟨false, fun e => e, by intro h; cases h⟩), ("y", ⟨true, fun _ : Nat => (3 : Nat), fun _ _ _ => rfl⟩)] [.start 1, .fail, .leave, .ack true, .start 2] = some s ∧
    s.pairs.lookup "x" = some 2 ∧ s.pairs.lookup "y" = some 3 ∧ s.ack = false ∧ (s.acknowledge true).ack = true := ⟨_, rfl, by decide, by decide, by decide, by decide⟩

/-- The command handles as the language names them, in the order of the enumeration (`CommandHandle.hh:40-52`), the first coded `0`, that is 48. -/
def handleNames : List String := ["NO_COMMAND_HANDLE", "COMMAND_SENT_TO_SYSTEM", "COMMAND_ACCEPTED", "COMMAND_RCVD_BY_SYSTEM", "COMMAND_FAILED", "COMMAND_DENIED", "COMMAND_SUCCESS", "COMMAND_ABORTED",
  "COMMAND_ABORT_FAILED", "COMMAND_INTERFACE_ERROR"]

/-- The number of a handle. -/
def handleCode (name : String) : Nat := noHandle + handleNames.idxOf name

/-- **C81**: a command can be interrupted at once exactly if its last handle is that of a failure, a denial or an interface error; a handle that is acknowledged is taken as it is if and only if it is one of the language's, and otherwise is an
interface error; and denied commands are told so. -/
theorem c81_names {Env V : Type} (s : St V) :
    (interruptible s = true ↔ ∃ n ∈ ["COMMAND_FAILED", "COMMAND_DENIED", "COMMAND_INTERFACE_ERROR"], s.handle = handleCode n) ∧
    (∀ h : Nat, enqueued (.ack h : Ev Env V) = .ack (if ∃ n ∈ handleNames.tail, h = handleCode n then h else handleCode "COMMAND_INTERFACE_ERROR")) ∧
    reportDenied s = setHandle (handleCode "COMMAND_DENIED") s ∧ success = handleCode "COMMAND_SUCCESS" := by
  have e1 : handleCode "COMMAND_FAILED" = 52 := by decide
  have e2 : handleCode "COMMAND_DENIED" = 53 := by decide
  have e3 : handleCode "COMMAND_INTERFACE_ERROR" = 57 := by decide
  refine ⟨?_, ?_, ?_, by decide⟩
  · simp [interruptible, e1, e2, e3, failed, denied, interfaceError]
    constructor
    · rintro ((h | h) | h) <;> simp [h]
    · rintro (h | h | h) <;> simp [h]
  · intro h
    simp only [enqueued]
    have : (∃ n ∈ handleNames.tail, h = handleCode n) ↔ noHandle < h ∧ h < handleMax := by
      have l : handleNames.tail.map handleCode = [49, 50, 51, 52, 53, 54, 55, 56, 57] := by decide
      have : (∃ n ∈ handleNames.tail, h = handleCode n) ↔ h ∈ handleNames.tail.map handleCode := by
        rw [List.mem_map]; constructor <;> rintro ⟨n, h1, h2⟩ <;> exact ⟨n, h1, h2.symm⟩
      rw [this, l]
      simp only [noHandle, handleMax, List.mem_cons, List.not_mem_nil, or_false]
      omega
    rw [e3]
    by_cases hh : noHandle < h ∧ h < handleMax
    · rw [if_pos (this.2 hh), if_neg (by simp; omega)]
    · rw [if_neg (fun c => hh (this.1 c)), if_pos (by simp; omega)]; rfl
  · rw [e2]; rfl

end Verif.Command
