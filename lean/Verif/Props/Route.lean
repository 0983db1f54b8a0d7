import Verif.Route.Spec
set_option autoImplicit false
/-!
C96: requests reach the handler registered last. C97: errors of handlers.
-/
namespace Verif.Route

theorem latest_snoc {X : Type} (f : Act → Option X) (h : List Act) (a : Act) (x : X) :
    Latest f (h ++ [a]) x ↔ f a = some x ∨ (f a = none ∧ Latest f h x) := by
  constructor
  · rintro ⟨pre, b, post, e, hb, hp⟩
    rcases List.eq_nil_or_concat post with rfl | ⟨p, y, rfl⟩
    · have := List.append_inj' e rfl
      have : a = b := by simpa using this.2
      subst this; exact .inl hb
    · rw [List.concat_eq_append, ← List.cons_append, ← List.append_assoc] at e
      have := List.append_inj' e rfl
      have ha : a = y := by simpa using this.2
      subst ha
      exact .inr ⟨hp a (by simp), pre, b, p, this.1, hb, fun z hz => hp z (by simp [hz])⟩
  · rintro (h1 | ⟨h1, pre, b, post, rfl, hb, hp⟩)
    · exact ⟨h, a, [], rfl, h1, by simp⟩
    · refine ⟨pre, b, post ++ [a], by simp, hb, fun z hz => ?_⟩
      rcases List.mem_append.1 hz with h | h
      · exact hp z h
      · rw [List.mem_singleton] at h; subst h; exact h1

theorem latest_unique {X : Type} {f : Act → Option X} {x y : X} (h : List Act) (h1 : Latest f h x) (h2 : Latest f h y) : x = y := by
  rw [← List.reverse_reverse h] at h1 h2
  generalize h.reverse = g at h1 h2
  induction g with
  | nil => obtain ⟨_, _, _, e, _⟩ := h1; simp at e
  | cons a r ih =>
    rw [List.reverse_cons, latest_snoc] at h1 h2
    rcases h1 with h1 | ⟨h1, k1⟩ <;> rcases h2 with h2 | ⟨h2, k2⟩
    · rw [h1] at h2; exact Option.some.inj h2
    · rw [h1] at h2; cases h2
    · rw [h1] at h2; cases h2
    · exact ih k1 k2

theorem latest_not_never {X : Type} {f : Act → Option X} {x : X} {h : List Act} (h1 : Latest f h x) (h2 : ∀ a ∈ h, f a = none) : False := by
  obtain ⟨pre, a, post, e, ha, _⟩ := h1
  have := h2 a (by rw [e]; simp)
  rw [ha] at this; cases this

theorem cmdFor_unique (h : List Act) (name : String) {H K : CmdHandler} (h1 : CmdFor h name H) (h2 : CmdFor h name K) : H = K := by
  rcases h1 with h1 | ⟨h1, k1⟩ <;> rcases h2 with h2 | ⟨h2, k2⟩
  · exact latest_unique h h1 h2
  · exact (latest_not_never h1 h2).elim
  · exact (latest_not_never h2 h1).elim
  · rcases k1 with k1 | ⟨k1, rfl⟩ <;> rcases k2 with k2 | ⟨k2, rfl⟩
    · exact latest_unique h k1 k2
    · exact (latest_not_never k1 k2).elim
    · exact (latest_not_never k2 k1).elim
    · rfl

theorem lkFor_unique (h : List Act) (name : String) {H K : LkHandler} (h1 : LkFor h name H) (h2 : LkFor h name K) : H = K := by
  rcases h1 with h1 | ⟨h1, k1⟩ <;> rcases h2 with h2 | ⟨h2, k2⟩
  · exact latest_unique h h1 h2
  · exact (latest_not_never h1 h2).elim
  · exact (latest_not_never h2 h1).elim
  · rcases k1 with k1 | ⟨k1, rfl⟩ <;> rcases k2 with k2 | ⟨k2, rfl⟩
    · exact latest_unique h k1 k2
    · exact (latest_not_never k1 k2).elim
    · exact (latest_not_never k2 k1).elim
    · rfl

theorem updFor_unique (h : List Act) {H K : Option Nat} (h1 : UpdFor h H) (h2 : UpdFor h K) : H = K := by
  rcases h1 with h1 | ⟨h1, rfl⟩ <;> rcases h2 with h2 | ⟨h2, rfl⟩
  · exact latest_unique h h1 h2
  · exact (latest_not_never h1 h2).elim
  · exact (latest_not_never h2 h1).elim
  · rfl

theorem put_foldl {H : Type} (h : H) (name : String) (ns : List String) : ∀ (m : String → Option H),
    (ns.foldl (fun m n => put m n h) m) name = if name ∈ ns then some h else m name := by
  induction ns with
  | nil => intro m; simp
  | cons a r ih =>
    intro m
    rw [List.foldl_cons, ih]
    by_cases h1 : name ∈ r
    · simp [h1]
    · by_cases h2 : name = a
      · subst h2; simp [put]
      · simp [h1, h2, put]

theorem cmd_step (code : Code) (s : St) (a : Act) (name : String) :
    (s.act code a).tables.cmd name = (forCommand name a).or (s.tables.cmd name) := by
  cases a with
  | req r => simp [St.act, forCommand]
  | reg r =>
    cases r <;> simp only [St.act, Tables.register, forCommand, Option.or]
    · rw [put_foldl]; split <;> simp_all
    · simp only [put]; split <;> simp_all

theorem cmdDefault_step (code : Code) (s : St) (a : Act) :
    (s.act code a).tables.cmdDefault = (forCmdDefault a).getD s.tables.cmdDefault := by
  cases a with
  | req r => simp [St.act, forCmdDefault]
  | reg r => cases r <;> simp [St.act, Tables.register, forCmdDefault]

theorem lk_step (code : Code) (s : St) (a : Act) (name : String) :
    (s.act code a).tables.lk name = (forLookup name a).or (s.tables.lk name) := by
  cases a with
  | req r => simp [St.act, forLookup]
  | reg r =>
    cases r <;> simp only [St.act, Tables.register, forLookup, Option.or]
    · rw [put_foldl]; split <;> simp_all
    · simp only [put]; split <;> simp_all

theorem lkDefault_step (code : Code) (s : St) (a : Act) :
    (s.act code a).tables.lkDefault = (forLkDefault a).getD s.tables.lkDefault := by
  cases a with
  | req r => simp [St.act, forLkDefault]
  | reg r => cases r <;> simp [St.act, Tables.register, forLkDefault]

theorem upd_step (code : Code) (s : St) (a : Act) : (s.act code a).tables.upd = (forUpdate a).getD s.tables.upd := by
  cases a with
  | req r => simp [St.act, forUpdate]
  | reg r => cases r <;> simp [St.act, Tables.register, forUpdate]

theorem run_snoc (code : Code) (h : List Act) (a : Act) : run code (h ++ [a]) = (run code h).act code a := by simp [run]

/-- Induction over histories. -/
theorem hist_ind {P : List Act → Prop} (h0 : P []) (h1 : ∀ (l : List Act) (c : Act), P l → P (l ++ [c])) (l : List Act) : P l := by
  rw [← List.reverse_reverse l]
  induction l.reverse with
  | nil => exact h0
  | cons a r ih => rw [List.reverse_cons]; exact h1 _ _ ih

/-- A table entry that follows `f` holds what came last. -/
theorem follow {X : Type} (f : Act → Option X) (code : Code) (v : St → Option X) (h0 : v {} = none)
    (hs : ∀ (s : St) (a : Act), v (s.act code a) = (f a).or (v s)) (h : List Act) :
    (∃ x, v (run code h) = some x ∧ Latest f h x) ∨ (v (run code h) = none ∧ ∀ a ∈ h, f a = none) := by
  induction h using hist_ind with
  | h0 => right; exact ⟨by simpa [run] using h0, by simp⟩
  | h1 l c ih =>
    rw [run_snoc, hs]
    cases hc : f c with
    | some x => left; exact ⟨x, rfl, (latest_snoc _ _ _ _).2 (.inl hc)⟩
    | none =>
      rcases ih with ⟨x, h1, h2⟩ | ⟨h1, h2⟩
      · left; exact ⟨x, by simpa using h1, (latest_snoc _ _ _ _).2 (.inr ⟨hc, h2⟩)⟩
      · right
        refine ⟨by simpa using h1, fun a ha => ?_⟩
        rcases List.mem_append.1 ha with h | h
        · exact h2 a h
        · rw [List.mem_singleton] at h; subst h; exact hc

/-- The same for an entry with an initial value. -/
theorem followD {X : Type} (f : Act → Option X) (code : Code) (v : St → X)
    (hs : ∀ (s : St) (a : Act), v (s.act code a) = (f a).getD (v s)) (h : List Act) :
    Latest f h (v (run code h)) ∨ (∀ a ∈ h, f a = none) ∧ v (run code h) = v {} := by
  induction h using hist_ind with
  | h0 => right; exact ⟨by simp, rfl⟩
  | h1 l c ih =>
    rw [run_snoc, hs]
    cases hc : f c with
    | some x => left; exact (latest_snoc _ _ _ _).2 (.inl hc)
    | none =>
      rcases ih with h1 | ⟨h1, h2⟩
      · left; exact (latest_snoc _ _ _ _).2 (.inr ⟨hc, h1⟩)
      · right
        refine ⟨fun a ha => ?_, h2⟩
        rcases List.mem_append.1 ha with h | h
        · exact h1 a h
        · rw [List.mem_singleton] at h; subst h; exact hc

theorem cmdHandler_for (code : Code) (h : List Act) (name : String) : CmdFor h name ((run code h).tables.cmdHandler name) := by
  rcases follow (forCommand name) code (fun s => s.tables.cmd name) rfl (fun s a => cmd_step code s a name) h with ⟨x, h1, h2⟩ | ⟨h1, h2⟩
  · left
    have : (run code h).tables.cmdHandler name = x := by
      simp [Tables.cmdHandler, h1]
    rw [this]; exact h2
  · right
    have : (run code h).tables.cmdHandler name = (run code h).tables.cmdDefault := by
      simp [Tables.cmdHandler, h1]
    rw [this]
    exact ⟨h2, followD forCmdDefault code (fun s => s.tables.cmdDefault) (fun s a => cmdDefault_step code s a) h⟩

theorem lkHandler_for (code : Code) (h : List Act) (name : String) : LkFor h name ((run code h).tables.lkHandler name) := by
  rcases follow (forLookup name) code (fun s => s.tables.lk name) rfl (fun s a => lk_step code s a name) h with ⟨x, h1, h2⟩ | ⟨h1, h2⟩
  · left
    have : (run code h).tables.lkHandler name = x := by
      simp [Tables.lkHandler, h1]
    rw [this]; exact h2
  · right
    have : (run code h).tables.lkHandler name = (run code h).tables.lkDefault := by
      simp [Tables.lkHandler, h1]
    rw [this]
    exact ⟨h2, followD forLkDefault code (fun s => s.tables.lkDefault) (fun s a => lkDefault_step code s a) h⟩

theorem upd_for (code : Code) (h : List Act) : UpdFor h (run code h).tables.upd :=
  followD forUpdate code (fun s => s.tables.upd) (fun s a => upd_step code s a) h

theorem callsOf_guarded (code : Code) (log : List Event) (n : Nat) (r : Req) (e : Event) (he : callsOf [e] = []) :
    callsOf (guarded code log n r e) = [(n, r)] := by
  unfold guarded
  cases code log n r
  · rfl
  · simp only [callsOf, List.filterMap_cons] at he ⊢
    split at he <;> simp_all
  · rfl

theorem callsOf_bare (code : Code) (log : List Event) (n : Nat) (r : Req) : callsOf (bare code log n r) = [(n, r)] := by
  unfold bare; cases code log n r <;> rfl

theorem callsOf_bareOpt (code : Code) (log : List Event) (f : Option Nat) (r : Req) :
    callsOf (bareOpt code log f r) = f.toList.map (fun n => (n, r)) := by
  cases f with
  | none => rfl
  | some n => exact callsOf_bare code log n r

/-- The code the tables give for a request. -/
def Tables.who (t : Tables) : Req → Option Nat
  | .execute c => (t.cmdHandler c.name).execCode
  | .abort c => (t.cmdHandler c.name).abortCode
  | .denied _ => none
  | .update _ => t.upd
  | .lookup s => (t.lkHandler s).code (.lookup s)
  | .thresholdsReal s => (t.lkHandler s).code (.thresholdsReal s)
  | .thresholdsInt s => (t.lkHandler s).code (.thresholdsInt s)
  | .clear s => (t.lkHandler s).code (.clear s)

theorem who_responsible (code : Code) (h : List Act) (r : Req) : Responsible h r ((run code h).tables.who r) := by
  cases r with
  | execute c => exact ⟨_, cmdHandler_for code h c.name, rfl⟩
  | abort c => exact ⟨_, cmdHandler_for code h c.name, rfl⟩
  | denied c => rfl
  | update u => exact upd_for code h
  | lookup s => exact ⟨_, lkHandler_for code h s, rfl⟩
  | thresholdsReal s => exact ⟨_, lkHandler_for code h s, rfl⟩
  | thresholdsInt s => exact ⟨_, lkHandler_for code h s, rfl⟩
  | clear s => exact ⟨_, lkHandler_for code h s, rfl⟩

theorem responsible_unique (h : List Act) (r : Req) {m n : Option Nat} (h1 : Responsible h r m) (h2 : Responsible h r n) : m = n := by
  cases r with
  | execute c => obtain ⟨H, a, rfl⟩ := h1; obtain ⟨K, b, rfl⟩ := h2; rw [cmdFor_unique h _ a b]
  | abort c => obtain ⟨H, a, rfl⟩ := h1; obtain ⟨K, b, rfl⟩ := h2; rw [cmdFor_unique h _ a b]
  | denied c => exact Eq.trans h1 (Eq.symm h2)
  | update u => exact updFor_unique h h1 h2
  | lookup s => obtain ⟨H, a, rfl⟩ := h1; obtain ⟨K, b, rfl⟩ := h2; rw [lkFor_unique h _ a b]
  | thresholdsReal s => obtain ⟨H, a, rfl⟩ := h1; obtain ⟨K, b, rfl⟩ := h2; rw [lkFor_unique h _ a b]
  | thresholdsInt s => obtain ⟨H, a, rfl⟩ := h1; obtain ⟨K, b, rfl⟩ := h2; rw [lkFor_unique h _ a b]
  | clear s => obtain ⟨H, a, rfl⟩ := h1; obtain ⟨K, b, rfl⟩ := h2; rw [lkFor_unique h _ a b]

theorem dispatch_calls (t : Tables) (code : Code) (log : List Event) (r : Req) :
    callsOf (t.dispatch code log r) = (t.who r).toList.map (fun k => (k, r)) := by
  cases r with
  | execute c =>
    simp only [Tables.dispatch, Tables.who]
    match t.cmdHandler c.name with
    | .object n => exact callsOf_guarded _ _ _ _ _ rfl
    | .functions (some n) _ => exact callsOf_guarded _ _ _ _ _ rfl
    | .functions none _ => rfl
    | .builtin => rfl
  | abort c =>
    simp only [Tables.dispatch, Tables.who]
    match t.cmdHandler c.name with
    | .object n => exact callsOf_guarded _ _ _ _ _ rfl
    | .functions _ (some n) => exact callsOf_guarded _ _ _ _ _ rfl
    | .functions _ none => rfl
    | .builtin => rfl
  | denied c => rfl
  | update u =>
    simp only [Tables.dispatch, Tables.who]
    match t.upd with
    | none => rfl
    | some n => exact callsOf_bare _ _ _ _
  | lookup s =>
    simp only [Tables.dispatch, Tables.who]
    match t.lkHandler s with
    | .object n => exact callsOf_guarded _ _ _ _ _ rfl
    | .functions (some n) _ _ _ => exact callsOf_guarded _ _ _ _ _ rfl
    | .functions none _ _ _ => rfl
    | .builtin => rfl
  | thresholdsReal s =>
    simp only [Tables.dispatch, Tables.who]
    match t.lkHandler s with
    | .object n => exact callsOf_bare _ _ _ _
    | .functions _ f _ _ => exact callsOf_bareOpt _ _ _ _
    | .builtin => rfl
  | thresholdsInt s =>
    simp only [Tables.dispatch, Tables.who]
    match t.lkHandler s with
    | .object n => exact callsOf_bare _ _ _ _
    | .functions _ _ f _ => exact callsOf_bareOpt _ _ _ _
    | .builtin => rfl
  | clear s =>
    simp only [Tables.dispatch, Tables.who]
    match t.lkHandler s with
    | .object n => exact callsOf_bare _ _ _ _
    | .functions _ _ _ f => exact callsOf_bareOpt _ _ _ _
    | .builtin => rfl

/-- **C96**: after any history of registrations and requests there is exactly one answer to the question which code is responsible for a request, and the
request leads to exactly one call of it, with that request, and to no other call. -/
theorem c96_reaches_latest (code : Code) (h : List Act) (r : Req) :
    ∃ n, Responsible h r n ∧ (∀ m, Responsible h r m → m = n) ∧ callsOf (outcome code h r) = n.toList.map (fun k => (k, r)) :=
  ⟨_, who_responsible code h r, fun _ hm => responsible_unique h r hm (who_responsible code h r), dispatch_calls _ _ _ _⟩

theorem latest_append {X : Type} (f : Act → Option X) (h k : List Act) (x : X) (hk : ∀ a ∈ k, f a = none) (hl : Latest f h x) : Latest f (h ++ k) x := by
  obtain ⟨pre, a, post, rfl, ha, hp⟩ := hl
  refine ⟨pre, a, post ++ k, by simp, ha, fun b hb => ?_⟩
  rcases List.mem_append.1 hb with h | h
  · exact hp b h
  · exact hk b h

/-- **C96, aborts**: a command is aborted by the handler that executes it, if no handler was registered for its name, and no default set, in between. -/
theorem c96_abort_same_handler (h k : List Act) (name : String) (H : CmdHandler) (hH : CmdFor h name H)
    (hk : ∀ a ∈ k, forCommand name a = none ∧ forCmdDefault a = none) : CmdFor (h ++ k) name H := by
  have all : ∀ {X : Type} (f : Act → Option X), (∀ a ∈ k, f a = none) → (∀ a ∈ h, f a = none) → ∀ a ∈ h ++ k, f a = none :=
    fun f h1 h2 a ha => (List.mem_append.1 ha).elim (h2 a) (h1 a)
  rcases hH with h1 | ⟨h1, h2 | ⟨h2, rfl⟩⟩
  · exact .inl (latest_append _ _ _ _ (fun a ha => (hk a ha).1) h1)
  · exact .inr ⟨all _ (fun a ha => (hk a ha).1) h1, .inl (latest_append _ _ _ _ (fun a ha => (hk a ha).2) h2)⟩
  · exact .inr ⟨all _ (fun a ha => (hk a ha).1) h1, .inr ⟨all _ (fun a ha => (hk a ha).2) h2, rfl⟩⟩

/-- Otherwise not: a handler registered later gets the abort of a command it never saw. -/
theorem c96_abort_other_handler : ∃ (h k : List Act) (c : Item),
    callsOf (outcome (fun _ _ _ => .returns) h (.execute c)) = [(1, .execute c)] ∧
    callsOf (outcome (fun _ _ _ => .returns) (h ++ k) (.abort c)) = [(2, .abort c)] :=
  ⟨[.reg (.command (.object 1) "drill")], [.req (.execute ⟨7, "drill"⟩), .reg (.commands (.object 2) ["dig", "drill"])], ⟨7, "drill"⟩, by decide +kernel, by decide +kernel⟩

/-- A history with everything in it. -/
theorem c96_example :
    let h : List Act := [.reg (.cmdDefault (.object 9)), .reg (.commands (.functions (some 1) none) ["a", "b"]), .reg (.command (.object 2) "b"),
      .reg (.lookup (.functions (some 3) none (some 4) none) "x"), .reg (.update (some 5))]
    let o := fun r => callsOf (outcome (fun _ _ _ => .returns) h r)
    o (.execute ⟨0, "a"⟩) = [(1, .execute ⟨0, "a"⟩)] ∧ o (.execute ⟨0, "b"⟩) = [(2, .execute ⟨0, "b"⟩)] ∧
    o (.execute ⟨0, "c"⟩) = [(9, .execute ⟨0, "c"⟩)] ∧ o (.abort ⟨0, "a"⟩) = [] ∧ o (.lookup "x") = [(3, .lookup "x")] ∧
    o (.thresholdsReal "x") = [] ∧ o (.thresholdsInt "x") = [(4, .thresholdsInt "x")] ∧ o (.lookup "y") = [] ∧
    o (.update ⟨1, ""⟩) = [(5, .update ⟨1, ""⟩)] := by decide +kernel

/-! ### C97 -/

/-- **C97, answers**: what the plan gets when the handler returns, throws an `InterfaceError`, or there is none. -/
theorem c97_answers (code : Code) (h : List Act) (c u : Item) (s : String) (n : Nat) :
    (Responsible h (.execute c) (some n) → code (run code h).log n (.execute c) = .interfaceError →
      outcome code h (.execute c) = [.call n (.execute c) .interfaceError, .handleError c]) ∧
    (Responsible h (.execute c) (some n) → code (run code h).log n (.execute c) = .returns → outcome code h (.execute c) = [.call n (.execute c) .returns]) ∧
    (CmdFor h c.name .builtin → outcome code h (.execute c) = [.ackSuccess c]) ∧
    (Responsible h (.abort c) (some n) → code (run code h).log n (.abort c) = .interfaceError →
      outcome code h (.abort c) = [.call n (.abort c) .interfaceError, .abortRefused c]) ∧
    (Responsible h (.abort c) (some n) → code (run code h).log n (.abort c) = .returns → outcome code h (.abort c) = [.call n (.abort c) .returns]) ∧
    (Responsible h (.abort c) none → outcome code h (.abort c) = [.abortAck c]) ∧
    (Responsible h (.lookup s) (some n) → code (run code h).log n (.lookup s) = .interfaceError →
      outcome code h (.lookup s) = [.call n (.lookup s) .interfaceError, .unknown s]) ∧
    (Responsible h (.lookup s) (some n) → code (run code h).log n (.lookup s) = .returns → outcome code h (.lookup s) = [.call n (.lookup s) .returns]) ∧
    (Responsible h (.lookup s) none → outcome code h (.lookup s) = []) ∧
    (Responsible h (.update u) none → outcome code h (.update u) = [.updateAck u]) ∧
    outcome code h (.denied c) = [.handleDenied c] := by
  refine ⟨?_, ?_, ?_, ?_, ?_, ?_, ?_, ?_, ?_, ?_, rfl⟩
  · intro hr he
    have hw := responsible_unique h _ (who_responsible code h (.execute c)) hr
    simp only [Tables.who] at hw
    simp only [outcome, Tables.dispatch]
    generalize (run code h).tables.cmdHandler c.name = H at hw
    match H, hw with
    | .object m, hw => cases hw; simp [execute, guarded, he]
    | .functions (some m) _, hw => cases hw; simp [execute, guarded, he]
  · intro hr he
    have hw := responsible_unique h _ (who_responsible code h (.execute c)) hr
    simp only [Tables.who] at hw
    simp only [outcome, Tables.dispatch]
    generalize (run code h).tables.cmdHandler c.name = H at hw
    match H, hw with
    | .object m, hw => cases hw; simp [execute, guarded, he]
    | .functions (some m) _, hw => cases hw; simp [execute, guarded, he]
  · intro hb
    have := cmdFor_unique h _ (cmdHandler_for code h c.name) hb
    simp [outcome, Tables.dispatch, this, execute]
  · intro hr he
    have hw := responsible_unique h _ (who_responsible code h (.abort c)) hr
    simp only [Tables.who] at hw
    simp only [outcome, Tables.dispatch]
    generalize (run code h).tables.cmdHandler c.name = H at hw
    match H, hw with
    | .object m, hw => cases hw; simp [abort, guarded, he]
    | .functions _ (some m), hw => cases hw; simp [abort, guarded, he]
  · intro hr he
    have hw := responsible_unique h _ (who_responsible code h (.abort c)) hr
    simp only [Tables.who] at hw
    simp only [outcome, Tables.dispatch]
    generalize (run code h).tables.cmdHandler c.name = H at hw
    match H, hw with
    | .object m, hw => cases hw; simp [abort, guarded, he]
    | .functions _ (some m), hw => cases hw; simp [abort, guarded, he]
  · intro hr
    have hw := responsible_unique h _ (who_responsible code h (.abort c)) hr
    simp only [Tables.who] at hw
    simp only [outcome, Tables.dispatch]
    generalize (run code h).tables.cmdHandler c.name = H at hw
    match H, hw with
    | .functions _ none, _ => rfl
    | .builtin, _ => rfl
  · intro hr he
    have hw := responsible_unique h _ (who_responsible code h (.lookup s)) hr
    simp only [Tables.who] at hw
    simp only [outcome, Tables.dispatch]
    generalize (run code h).tables.lkHandler s = H at hw
    match H, hw with
    | .object m, hw => cases hw; simp [lookup, guarded, he]
    | .functions (some m) _ _ _, hw => cases hw; simp [lookup, guarded, he]
  · intro hr he
    have hw := responsible_unique h _ (who_responsible code h (.lookup s)) hr
    simp only [Tables.who] at hw
    simp only [outcome, Tables.dispatch]
    generalize (run code h).tables.lkHandler s = H at hw
    match H, hw with
    | .object m, hw => cases hw; simp [lookup, guarded, he]
    | .functions (some m) _ _ _, hw => cases hw; simp [lookup, guarded, he]
  · intro hr
    have hw := responsible_unique h _ (who_responsible code h (.lookup s)) hr
    simp only [Tables.who] at hw
    simp only [outcome, Tables.dispatch]
    generalize (run code h).tables.lkHandler s = H at hw
    match H, hw with
    | .functions none _ _ _, _ => rfl
    | .builtin, _ => rfl
  · intro hr
    have hw := responsible_unique h _ (who_responsible code h (.update u)) hr
    simp only [Tables.who] at hw
    simp [outcome, Tables.dispatch, hw, update]

/-- User code that throws nothing but `InterfaceError`, and not even that when asked for an update. -/
def Tame (code : Code) : Prop :=
  ∀ (log : List Event) (n : Nat) (r : Req), code log n r = .returns ∨ (code log n r = .interfaceError ∧ ∀ (u : Item), r ≠ .update u)

theorem guarded_caught {code : Code} (ht : Tame code) (log : List Event) (n : Nat) (r : Req) (e : Event) (he : e ≠ .uncaught) :
    .uncaught ∉ guarded code log n r e := by
  rcases ht log n r with h | ⟨h, _⟩ <;> simp [guarded, h, Ne.symm he]

theorem outbound_all (t : Tables) {code : Code} (ht : Tame code) (l : List Req)
    (hk : ∀ r ∈ l, (∃ c, r = .execute c ∧ ∀ a, t.cmdHandler c.name ≠ .functions none a) ∨ (∃ c, r = .denied c) ∨ (∃ c, r = .abort c) ∨ ∃ u, r = .update u) :
    ∀ (log : List Event), .uncaught ∉ log → ∃ es, outbound t code l log = (log ++ es, []) ∧ .uncaught ∉ es ∧
      callsOf es = l.filterMap (fun r => (t.who r).map (fun n => (n, r))) := by
  induction l with
  | nil => intro log _; exact ⟨[], by simp [outbound], by simp, rfl⟩
  | cons r rest ih =>
    intro log hlog
    have hu : .uncaught ∉ t.dispatch code log r := by
      rcases hk r (by simp) with ⟨c, rfl, hc⟩ | ⟨c, rfl⟩ | ⟨c, rfl⟩ | ⟨u, rfl⟩
      · simp only [Tables.dispatch]
        generalize t.cmdHandler c.name = H at hc
        match H, hc with
        | .object n, _ => exact guarded_caught ht _ _ _ _ (by simp)
        | .functions (some n) _, _ => exact guarded_caught ht _ _ _ _ (by simp)
        | .functions none a, hc => exact absurd rfl (hc a)
        | .builtin, _ => simp [execute]
      · simp [Tables.dispatch]
      · simp only [Tables.dispatch]
        generalize t.cmdHandler c.name = H
        match H with
        | .object n => exact guarded_caught ht _ _ _ _ (by simp)
        | .functions _ (some n) => exact guarded_caught ht _ _ _ _ (by simp)
        | .functions _ none => simp [abort]
        | .builtin => simp [abort]
      · simp only [Tables.dispatch, update]
        cases t.upd with
        | none => simp
        | some n =>
          rcases ht log n (.update u) with h | ⟨_, h⟩
          · simp [bare, h]
          · exact absurd rfl (h u)
    have hf : (t.dispatch code log r).contains .uncaught = false := by simpa using hu
    obtain ⟨es, h1, h2, h3⟩ := ih (fun r' hr' => hk r' (by simp [hr'])) (log ++ t.dispatch code log r) (by simp [hlog, hu])
    refine ⟨t.dispatch code log r ++ es, ?_, by simp [hu, h2], ?_⟩
    · rw [outbound, hf]; simp only; rw [h1, List.append_assoc]
    · have hc : callsOf (t.dispatch code log r ++ es) = callsOf (t.dispatch code log r) ++ callsOf es := by simp [callsOf]
      rw [hc, dispatch_calls, h3]
      cases hw : t.who r <;> simp [hw]

/-- **C97, all requests are made**: if user code throws nothing but `InterfaceError`s, and none when asked for an update, and no handler is an empty function,
then in the outbound phase of a macro step every accepted command is executed, every rejected one denied, every abort and update made, in this order,
each once and to the code responsible; nothing is left over and no exception escapes. -/
theorem c97_all_made_partial (code : Code) (ht : Tame code) (h : List Act) (accepted rejected aborts updates : List Item)
    (hf : ∀ c ∈ accepted, ∀ a, ¬ CmdFor h c.name (.functions none a)) (log : List Event) (hl : .uncaught ∉ log) :
    ∃ (es : List Event) (who : Req → Option Nat), (∀ r, Responsible h r (who r)) ∧
      outbound (run code h).tables code (requests accepted rejected aborts updates) log = (log ++ es, []) ∧ .uncaught ∉ es ∧
      callsOf es = (requests accepted rejected aborts updates).filterMap (fun r => (who r).map (fun n => (n, r))) := by
  obtain ⟨es, h1, h2, h3⟩ := outbound_all (run code h).tables ht (requests accepted rejected aborts updates) (by
    intro r hr
    simp only [requests, List.mem_append, List.mem_map] at hr
    rcases hr with ((⟨c, hc, rfl⟩ | ⟨c, hc, rfl⟩) | ⟨c, hc, rfl⟩) | ⟨c, hc, rfl⟩
    · exact .inl ⟨c, rfl, fun a e => hf c hc a (e ▸ cmdHandler_for code h c.name)⟩
    · exact .inr (.inl ⟨c, rfl⟩)
    · exact .inr (.inr (.inl ⟨c, rfl⟩))
    · exact .inr (.inr (.inr ⟨c, rfl⟩))) log hl
  exact ⟨es, (run code h).tables.who, fun r => who_responsible code h r, h1, h2, h3⟩

/-- A case of it: two commands, the first refused by its handler, one denied, an update nobody handles. -/
theorem c97_example :
    let code : Code := fun _ n _ => if n = 1 then .interfaceError else .returns
    outbound (run code [.reg (.command (.object 1) "a"), .reg (.command (.object 2) "b")]).tables code
        (requests [⟨0, "a"⟩, ⟨1, "b"⟩] [⟨2, "a"⟩] [⟨3, "b"⟩] [⟨4, ""⟩]) [] =
      ([.call 1 (.execute ⟨0, "a"⟩) .interfaceError, .handleError ⟨0, "a"⟩, .call 2 (.execute ⟨1, "b"⟩) .returns, .handleDenied ⟨2, "a"⟩,
        .call 2 (.abort ⟨3, "b"⟩) .returns, .updateAck ⟨4, ""⟩], []) := by decide +kernel

theorem example_tame : Tame (fun _ n r => match r with | .update _ => .returns | _ => if n = 1 then .interfaceError else .returns) := by
  intro log n r
  cases r <;> simp <;> omega

/-- **Found**: an `InterfaceError` of the update handler is not caught (`AdapterConfiguration.cc:577`; compare `526-534`): the exception leaves the executive in the middle of
the outbound phase, and the remaining updates are not made in this step. -/
theorem c97_update_escapes :
    let code : Code := fun _ _ _ => .interfaceError
    outbound (run code [.reg (.update (some 5))]).tables code (requests [] [] [] [⟨0, ""⟩, ⟨1, ""⟩]) [] =
      ([.call 5 (.update ⟨0, ""⟩) .interfaceError, .uncaught], [.update ⟨1, ""⟩]) := by decide +kernel

/-- **Found**: nor one of `setThresholds` or `clearThresholds` (`AdapterConfiguration.cc:501-520`). -/
theorem c97_thresholds_escape :
    let code : Code := fun _ _ _ => .interfaceError
    let h : List Act := [.reg (.lookup (.object 3) "x")]
    outcome code h (.lookup "x") = [.call 3 (.lookup "x") .interfaceError, .unknown "x"] ∧
    outcome code h (.thresholdsReal "x") = [.call 3 (.thresholdsReal "x") .interfaceError, .uncaught] ∧
    outcome code h (.clear "x") = [.call 3 (.clear "x") .interfaceError, .uncaught] := by decide +kernel

/-- What has happened after a request is what had happened before and what that request leads to, with the handlers in force; a registration makes nothing happen. -/
theorem c96_log (code : Code) (h : List Act) :
    (∀ r, (run code (h ++ [.req r])).log = (run code h).log ++ (run code h).tables.dispatch code (run code h).log r) ∧
      (∀ r, (run code (h ++ [.reg r])).log = (run code h).log) ∧
      (∀ r, callsOf ((run code (h ++ [.req r])).log.drop (run code h).log.length) = callsOf ((run code h).tables.dispatch code (run code h).log r)) := by
  have e : ∀ r, (run code (h ++ [.req r])).log = (run code h).log ++ (run code h).tables.dispatch code (run code h).log r := fun r => by
    rw [run_snoc]; rfl
  refine ⟨e, fun r => by rw [run_snoc]; rfl, fun r => by rw [e, List.drop_left]⟩

end Verif.Route
