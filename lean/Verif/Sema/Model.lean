set_option autoImplicit false
/-!
Model of `ThreadSemaphore`, `/repo/src/utils/ThreadSemaphore.cc` (POSIX): any number of threads calling `wait` and `post`, signals arriving at any time.

The semaphore of the operating system is modelled by its POSIX description: a number; `sem_post` adds one unless the largest value is reached; `sem_wait` subtracts one if the number is positive, and otherwise
blocks; it may be interrupted by a signal, or fail. Not modelled: construction and destruction, the Mach variant, the order in which waiting threads are served.
-/
namespace Verif.Sema

/-- Error numbers of `sem_wait` and `sem_post`. `ThreadSemaphore.cc:132, 137, 147`. -/
inductive Errno | EINTR | EINVAL | EDEADLK | EOVERFLOW
deriving DecidableEq, Repr

/-- What a call of the operating system gives: 0, or -1 with `errno`. `ThreadSemaphore.cc:132, 145`. -/
inductive Sys
  | zero
  | minusOne (errno : Errno)
deriving DecidableEq, Repr

/-- What `wait` and `post` return: 0 or an error number. `ThreadSemaphore.cc:125-149`. -/
inductive Ret
  | ok
  | failed (e : Errno)
deriving DecidableEq, Repr

/-- One turn of the loop of `wait`: `none` means that it goes on. `ThreadSemaphore.cc:132-140`. -/
def waitTurn : Sys → Option Ret
  | .minusOne e => if e = .EINTR then none else some (.failed e)
  | .zero => some .ok

/-- `post`, `ThreadSemaphore.cc:143-149`. -/
def postRet : Sys → Ret
  | .minusOne e => .failed e
  | .zero => .ok

/-- What has been returned to whom. `ThreadSemaphore.hh`. -/
inductive Done
  | wait (t : Nat) (r : Ret)
  | post (t : Nat) (r : Ret)
deriving DecidableEq, Repr

/-- The semaphore, the threads inside `wait`, what has been returned. `ThreadSemaphore.cc:104-153`. -/
structure St where
  value : Nat := 0
  waiting : List Nat := []
  done : List Done := []

/-- What happens: a thread calls `wait` or `post`; `sem_wait` of a waiting thread takes one, is interrupted, or fails. -/
inductive Ev
  | post (t : Nat)
  | call (t : Nat)
  | take (t : Nat)
  | signal (t : Nat)
  | error (t : Nat) (e : Errno)
deriving DecidableEq, Repr

/-- `sem_wait` of thread `t` gives `r`: a turn of the loop. `ThreadSemaphore.cc:132-140`. -/
def St.turn (s : St) (t : Nat) (r : Sys) : St := match waitTurn r with
  | none => s
  | some x => { s with waiting := s.waiting.erase t, done := s.done ++ [.wait t x] }

/-- Can it happen? A thread inside `wait` does nothing else; `sem_wait` succeeds only if the number is positive. -/
def Enabled (s : St) : Ev → Prop
  | .post t => t ∉ s.waiting
  | .call t => t ∉ s.waiting
  | .take t => t ∈ s.waiting ∧ 0 < s.value
  | .signal t => t ∈ s.waiting
  | .error t e => t ∈ s.waiting ∧ e ≠ .EINTR

/-- One event; `max` is `SEM_VALUE_MAX`. `ThreadSemaphore.cc:125-149`. -/
def step (max : Nat) (s : St) : Ev → St
  | .post t => if s.value < max then { s with value := s.value + 1, done := s.done ++ [.post t (postRet .zero)] } else { s with done := s.done ++ [.post t (postRet (.minusOne .EOVERFLOW))] }
  | .call t => { s with waiting := s.waiting ++ [t] }
  | .take t => St.turn { s with value := s.value - 1 } t .zero
  | .signal t => s.turn t (.minusOne .EINTR)
  | .error t e => s.turn t (.minusOne e)

/-- Schedules. -/
inductive Run (max : Nat) : List Ev → St → Prop
  | nil : Run max [] {}
  | snoc {es s} (e : Ev) : Run max es s → Enabled s e → Run max (es ++ [e]) (step max s e)

end Verif.Sema
