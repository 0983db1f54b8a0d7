import Verif.Sema.Model
set_option autoImplicit false
/-!
C154: the semaphore by which threads wait for each other.
-/
namespace Verif.Sema

/-- Calls of `wait` that returned 0; that returned an error; calls of `post` that returned 0. -/
def waitsOk (l : List Done) : Nat := l.countP fun | .wait _ .ok => true | _ => false
@[inherit_doc waitsOk] def waitsFailed (l : List Done) : Nat := l.countP fun | .wait _ (.failed _) => true | _ => false
@[inherit_doc waitsOk] def postsOk (l : List Done) : Nat := l.countP fun | .post _ .ok => true | _ => false
/-- Calls of `wait`. -/
def calls (es : List Ev) : Nat := es.countP fun | .call _ => true | _ => false
/-- Interruptions by signals. -/
def isSignal : Ev → Bool
  | .signal _ => true
  | _ => false

theorem inv {max : Nat} {es : List Ev} {s : St} (h : Run max es s) :
    s.value + waitsOk s.done = postsOk s.done ∧ s.value ≤ max ∧ s.waiting.Nodup ∧ calls es = waitsOk s.done + waitsFailed s.done + s.waiting.length := by
  induction h with
  | nil => exact ⟨rfl, Nat.zero_le _, List.nodup_nil, rfl⟩
  | @snoc es s e hr he ih =>
    obtain ⟨h1, h2, h3, h4⟩ := ih
    cases e with
    | post t =>
      by_cases hv : s.value < max
      · simp only [step, if_pos hv, postRet]
        refine ⟨?_, hv, h3, ?_⟩
        · simp [waitsOk, postsOk, List.countP_append] at *; omega
        · simp [waitsOk, waitsFailed, calls, List.countP_append] at *; omega
      · simp only [step, if_neg hv, postRet]
        refine ⟨?_, h2, h3, ?_⟩
        · simp [waitsOk, postsOk, List.countP_append] at *; omega
        · simp [waitsOk, waitsFailed, calls, List.countP_append] at *; omega
    | call t =>
      simp only [step]
      refine ⟨h1, h2, ?_, ?_⟩
      · rw [List.nodup_append]
        refine ⟨h3, by simp, ?_⟩
        intro a ha b hb hab
        simp at hb; subst hb; subst hab; exact he ha
      · simp [waitsOk, waitsFailed, calls, List.countP_append] at *; omega
    | take t =>
      obtain ⟨ht, hv⟩ := he
      have hl : 0 < s.waiting.length := List.length_pos_of_mem ht
      simp only [step, St.turn, waitTurn]
      refine ⟨?_, Nat.le_trans (Nat.sub_le _ _) h2, h3.erase _, ?_⟩
      · simp [waitsOk, postsOk, List.countP_append] at *; omega
      · simp [waitsOk, waitsFailed, calls, List.countP_append, List.length_erase_of_mem ht] at *; omega
    | signal t =>
      simp only [step, St.turn, waitTurn, if_true]
      exact ⟨h1, h2, h3, by simp [calls, List.countP_append] at *; omega⟩
    | error t e =>
      obtain ⟨ht, hne⟩ := he
      have hl : 0 < s.waiting.length := List.length_pos_of_mem ht
      simp only [step, St.turn, waitTurn, if_neg hne]
      refine ⟨?_, h2, h3.erase _, ?_⟩
      · simp [waitsOk, postsOk, List.countP_append] at *; omega
      · simp [waitsOk, waitsFailed, calls, List.countP_append, List.length_erase_of_mem ht] at *; omega

/-- **C154, one `wait` per `post`.**  In every schedule: what has been posted and not yet taken is in the semaphore; so no more calls of `wait` have returned 0 than calls of `post`. -/
theorem c154_count {max : Nat} {es : List Ev} {s : St} (h : Run max es s) :
    s.value + waitsOk s.done = postsOk s.done ∧ waitsOk s.done ≤ postsOk s.done := by
  have := (inv h).1
  exact ⟨this, by omega⟩

/-- **C154, signals.**  A signal neither makes `wait` return nor takes anything: a schedule without its signals is a schedule and ends in the same state, with the same returns. -/
theorem c154_signals {max : Nat} {es : List Ev} {s : St} (h : Run max es s) : Run max (es.filter fun e => !isSignal e) s := by
  induction h with
  | nil => exact .nil
  | @snoc es s e hr he ih =>
    rw [List.filter_append]
    cases e with
    | signal t =>
      have : step max s (.signal t) = s := by simp [step, St.turn, waitTurn]
      rw [this]
      simpa [isSignal] using ih
    | _ => simpa [isSignal] using ih.snoc _ he

/-- **C154, nobody is forgotten.**  When no waiting thread can be served any more, there have been more calls of `wait` than of `post`, or nobody waits: if at least as many calls of `post` succeeded as `wait`
was called, every call of `wait` has returned. -/
theorem c154_served {max : Nat} {es : List Ev} {s : St} (h : Run max es s) (hq : ∀ t, ¬ Enabled s (.take t)) (hp : calls es ≤ postsOk s.done) : s.waiting = [] := by
  obtain ⟨h1, _, _, h4⟩ := inv h
  cases hw : s.waiting with
  | nil => rfl
  | cons t r =>
    exfalso
    have hv : s.value = 0 := by
      rcases Nat.eq_zero_or_pos s.value with h | h
      · exact h
      · exact absurd ⟨by rw [hw]; simp, h⟩ (hq t)
    rw [hw] at h4
    simp only [List.length_cons] at h4
    omega

/-- **C154, what is returned.**  `wait` never returns because of a signal, and each call of it that has returned 0 has taken one; `post` fails only if the semaphore has its largest value, and says so. -/
theorem c154_returns {max : Nat} {s : St} (e : Ev) :
    (∀ t, (step max s e).done = s.done ++ [.wait t .ok] → e = .take t ∧ (step max s e).value = s.value - 1) ∧
    (∀ t x, (step max s e).done = s.done ++ [.post t (.failed x)] → x = .EOVERFLOW ∧ max ≤ s.value) ∧
    (∀ t, (step max s e).done ≠ s.done ++ [.wait t (.failed .EINTR)]) := by
  have hd : ∀ d : Done, (step max s e).done = s.done ++ [d] →
      (match e with
        | .post t => d = .post t .ok ∧ s.value < max ∨ d = .post t (.failed .EOVERFLOW) ∧ max ≤ s.value
        | .take t => d = .wait t .ok
        | .error t x => x ≠ .EINTR ∧ d = .wait t (.failed x)
        | _ => False) := by
    intro d h
    cases e with
    | post t =>
      simp only [step, postRet] at h
      split at h
      · rename_i hv
        left; simp at h; exact ⟨h.symm, hv⟩
      · rename_i hv
        right; simp at h; exact ⟨h.symm, Nat.le_of_not_lt hv⟩
    | call t => simp [step] at h
    | take t => simp [step, St.turn, waitTurn] at h; exact h.symm
    | signal t => simp [step, St.turn, waitTurn] at h
    | error t x =>
      by_cases hx : x = .EINTR
      · simp [step, St.turn, waitTurn, hx] at h
      · simp [step, St.turn, waitTurn, hx] at h; exact ⟨hx, h.symm⟩
  refine ⟨?_, ?_, ?_⟩
  · intro t h
    have := hd _ h
    cases e with
    | take u =>
      simp only [Done.wait.injEq, and_true] at this
      subst this
      exact ⟨rfl, rfl⟩
    | post u => rcases this with ⟨h, -⟩ | ⟨h, -⟩ <;> cases h
    | error u x => cases this.2
    | _ => exact this.elim
  · intro t x h
    have := hd _ h
    cases e with
    | post u =>
      rcases this with ⟨h, -⟩ | ⟨h, hv⟩
      · cases h
      · cases h; exact ⟨rfl, hv⟩
    | take u => cases this
    | error u y => cases this.2
    | _ => exact this.elim
  · intro t h
    have := hd _ h
    cases e with
    | post u => rcases this with ⟨h, -⟩ | ⟨h, -⟩ <;> cases h
    | take u => cases this
    | error u y => obtain ⟨h1, h2⟩ := this; cases h2; exact h1 rfl
    | _ => exact this.elim

/-- Two threads wait, a signal comes, three posts of which the last is one too many for a semaphore of size 1. -/
theorem c154_example : ∃ s, Run 1 [.call 1, .call 2, .signal 1, .post 3, .take 2, .post 3, .post 4, .take 1] s ∧ s.value = 0 ∧ s.waiting = [] ∧
    s.done = [.post 3 .ok, .wait 2 .ok, .post 3 .ok, .post 4 (.failed .EOVERFLOW), .wait 1 .ok] := by
  refine ⟨_, Run.snoc (es := [.call 1, .call 2, .signal 1, .post 3, .take 2, .post 3, .post 4]) _ (Run.snoc (es := [.call 1, .call 2, .signal 1, .post 3, .take 2, .post 3]) _
    (Run.snoc (es := [.call 1, .call 2, .signal 1, .post 3, .take 2]) _ (Run.snoc (es := [.call 1, .call 2, .signal 1, .post 3]) _ (Run.snoc (es := [.call 1, .call 2, .signal 1]) _
    (Run.snoc (es := [.call 1, .call 2]) _ (Run.snoc (es := [.call 1]) _ (Run.snoc (es := []) _ .nil ?_) ?_) ?_) ?_) ?_) ?_) ?_) ?_, ?_, ?_, ?_⟩ <;> simp [Enabled, step, St.turn, waitTurn, postRet]

end Verif.Sema
