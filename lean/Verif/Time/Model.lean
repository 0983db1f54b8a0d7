import Mathlib.Data.Rat.Floor

/-!
Model of time arithmetic, `/repo/src/utils/timeval-utils.cc` and `timespec-utils.cc` (the same functions with a million and a billion fractions
per second), and of the timers, `/repo/src/app-framework/ItimerTimebase.cc`, `PosixTimebase.cc`, `TimeAdapter.cc`.

Not modelled: overflow of `time_t`; failing system calls; `DispatchTimebase.cc`.
-/
namespace Verif.Time

/-- `struct timeval` and `struct timespec`. `timeval-utils.cc:61-82`, `timespec-utils.cc:51-72`. -/
structure TV where
  sec : Int
  frac : Int
deriving DecidableEq, Repr

/-- `timevalNormalize`, `timeval-utils.cc:61-82` (`M` = 1000000); `timespecNormalize`, `timespec-utils.cc:51-72` (`M` = 1000000000). -/
def norm (M : Int) (t : TV) : TV :=
  let t := if M ≤ t.frac then ⟨t.sec + 1, t.frac - M⟩ else if t.frac + M ≤ 0 then ⟨t.sec - 1, t.frac + M⟩ else t
  if 0 < t.sec ∧ t.frac < 0 then ⟨t.sec - 1, t.frac + M⟩ else if t.sec < 0 ∧ 0 < t.frac then ⟨t.sec + 1, t.frac - M⟩ else t

/-- `operator<`, `timeval-utils.cc:84-88`, `timespec-utils.cc:74-78`. -/
def TV.lt (a b : TV) : Bool := decide (a.sec < b.sec) || (decide (a.sec = b.sec) && decide (a.frac < b.frac))

/-- `operator>`, `timeval-utils.cc:90-94`, `timespec-utils.cc:80-84`. -/
def TV.gt (a b : TV) : Bool := decide (a.sec > b.sec) || (decide (a.sec = b.sec) && decide (a.frac > b.frac))

/-- `operator==`, `timeval-utils.cc:96-99`, `timespec-utils.cc:86-89`. -/
def TV.eq (a b : TV) : Bool := decide (a.sec = b.sec) && decide (a.frac = b.frac)

/-- `operator+`, `timeval-utils.cc:101-107`, `timespec-utils.cc:91-97`. -/
def TV.add (M : Int) (a b : TV) : TV := norm M ⟨a.sec + b.sec, a.frac + b.frac⟩

/-- `operator-`, `timeval-utils.cc:109-115`, `timespec-utils.cc:99-105`. -/
def TV.sub (M : Int) (a b : TV) : TV := norm M ⟨a.sec - b.sec, a.frac - b.frac⟩

/-- Conversion of a real number to an integer type: towards zero. As the casts in `timeval-utils.cc:117-133`. -/
def trunc (x : ℚ) : Int := if 0 ≤ x then ⌊x⌋ else ⌈x⌉

/-- `doubleToTimeval`, `timeval-utils.cc:117-133`; `doubleToTimespec`, `timespec-utils.cc:107-118`, for a number: a finite double is a
rational.  `rnd` is the rounding of a product to a double; the difference of a double and its integer part is a double, so that subtraction is exact.  The
bounds of `time_t` convert to the doubles `2^63` and `-2^63`.  `mem` is what is in `result` before; at `2^63` itself the cast in the code
is undefined and this model says nothing true. -/
def ofDouble (M : Int) (rnd : ℚ → ℚ) (mem : TV) (d : ℚ) : TV :=
  if 2 ^ 63 < d ∨ d < -2 ^ 63 then mem
  else norm M ⟨trunc d, trunc (rnd (M * (d - trunc d)))⟩

/-! ## Timers -/

/-- Which timer. `ItimerTimebase.cc`, `PosixTimebase.cc`. -/
inductive Kind
  | itimer
  | posix
deriving DecidableEq, Repr

/-- A timebase and its adapter.  Times are in the timer's own units (microseconds, nanoseconds); that of the conversion of the request is
`ofDouble`.  `armed`: when the system's timer will go off (`every` its period in tick mode).  `next` is `m_nextWakeup`, 0 for none.  `told` is not in the
code: the times at which the executive was notified, latest first. `ItimerTimebase.cc:40-66`, `PosixTimebase.cc:45-70`, `TimeAdapter.cc`. -/
structure St where
  now : Int := 1
  started : Bool := false
  interval : Nat := 0
  armed : Option Int := none
  every : Option Nat := none
  next : Int := 0
  told : List Int := []
deriving DecidableEq, Repr

/-- Start the system's timer to go off at `deadline`.  `setitimer` gets the difference and `timer_settime` the time itself; a zero disarms. `ItimerTimebase.cc:180-195`, `PosixTimebase.cc:194-203`. -/
def St.arm (k : Kind) (s : St) (deadline : Int) : St :=
  match k with
  | .itimer => { s with armed := if deadline - s.now = 0 then none else some deadline }
  | .posix => { s with armed := if deadline = 0 then none else some deadline }

/-- `TimeAdapter::timeout`, `TimeAdapter.cc:182-201`, when no reminder is set (`next` 0 or past): it notifies the executive. -/
def St.tell (s : St) : St := { s with told := s.now :: s.told }

/-- `setTimer`, `ItimerTimebase.cc:154-200`, `PosixTimebase.cc:163-207`: ignored in tick mode; if the deadline has passed the wake-up
function is called at once (it finds `m_nextWakeup` 0 and notifies). -/
def St.setTimer (k : Kind) (s : St) (deadline : Int) : St :=
  if s.interval ≠ 0 then s
  else if deadline < s.now then { s with next := 0 }.tell
  else { s.arm k deadline with next := deadline }

/-- `TimeAdapter::timeout`, `TimeAdapter.cc:182-201`.  The clock is read in `timeout` and again in `setTimer`, `late` units later. -/
def St.timeout (k : Kind) (s : St) (late : Nat) : St :=
  let s' := if s.next ≠ 0 ∧ s.now < s.next then ({ s with now := s.now + late } : St).setTimer k s.next else s
  s'.tell

/-- `start`, `ItimerTimebase.cc:79-123`, `PosixTimebase.cc:83-135`.  In tick mode the period in units: the Posix timer's nanoseconds are
computed as `1000 * m_interval_usec` in 32 bits (115). -/
def St.start (k : Kind) (s : St) : St :=
  if s.started then s
  else if s.interval = 0 then { s with started := true }
  else
    let period := match k with
      | .itimer => s.interval / 1000000 * 1000000 + s.interval % 1000000
      | .posix => 1000 * s.interval % 2 ^ 32
    { s with started := true, every := if period = 0 then none else some period }

/-- `stop`, `ItimerTimebase.cc:125-152`, `PosixTimebase.cc:137-161`: `m_started` stays set. -/
def St.stop (s : St) : St := if s.started then { s with armed := none, every := none } else s

/-- `setTickInterval`, `ItimerTimebase.cc:67-72`, `PosixTimebase.cc:71-76`: `none` is the interface error. -/
def St.setInterval (s : St) (i : Nat) : Option St := if s.started then none else some { s with interval := i }

/-- What happens to a timebase that is not in tick mode. `ItimerTimebase.cc:154-200`, `TimeAdapter.cc:182-201`. -/
inductive Ev
  /-- time passes -/
  | pass (n : Nat)
  /-- a request -/
  | set (deadline : Int)
  /-- the system's timer goes off, which it does not do early -/
  | fire (late : Nat)
  /-- a wake-up from elsewhere (the signal is sent by somebody, or comes early) -/
  | stray (late : Nat)
deriving DecidableEq, Repr

/-- One event; `none` if it cannot happen. `ItimerTimebase.cc:154-200`, `TimeAdapter.cc:182-201`. -/
def St.next? (k : Kind) (s : St) : Ev → Option St
  | .pass n => some { s with now := s.now + n }
  | .set d => some (s.setTimer k d)
  | .fire late => match s.armed with
    | some e => if e ≤ s.now then some (({ s with armed := none } : St).timeout k late) else none
    | none => none
  | .stray late => some (s.timeout k late)

/-- A history of events. (Any sequence of `ItimerTimebase.cc:154-200`, `TimeAdapter.cc:182-201`.) -/
def St.run (k : Kind) : St → List Ev → Option St
  | s, [] => some s
  | s, e :: es => match s.next? k e with
    | some s' => St.run k s' es
    | none => none

end Verif.Time
