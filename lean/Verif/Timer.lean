import Verif.Base

/-!
# Model of the interval timer

`/repo/src/interface/timer.rs` 37-142 (`IntervalTimer`),
`/repo/src/safeposix/syscalls/sys_calls.rs` 833-866 (`setitimer_syscall`).

Time and durations are natural numbers of nanoseconds.  The tick threads are modelled by their
number; a `tick` action is one pass of the loop of `tick` (102-133) by any one of them, which
can happen at any time.  Simplification: the 20 ms sleep between passes is not
modelled, so passes can come at any moment (more schedules than the code has).
Negative `tv_sec`/`tv_usec`, which the code casts to huge unsigned values, are not modelled.
-/

namespace Verif.Timer

/-- `_IntervalTimer` 37-46, plus the clock, the number of tick threads and the SIGALRMs sent. -/
structure State where
  now : Nat
  start : Nat
  curr : Nat
  next : Nat
  ticking : Bool
  threads : Nat
  deriving DecidableEq, Repr

/-- `IntervalTimer::new` 54-65. -/
def State.init : State :=
  { now := 0, start := 0, curr := 0, next := 0, ticking := false, threads := 0 }

/-- `_set_itimer` 74-98. -/
def setItimer (s : State) (curr next : Nat) : State :=
  if curr = 0 then { s with ticking := false }
  else
    let s := { s with start := s.now, curr := curr, next := next }
    if s.ticking then s else { s with ticking := true, threads := s.threads + 1 }

/-- One pass of the loop of `tick` 102-133: the new state and whether SIGALRM was sent. -/
def tick (s : State) : State × Bool :=
  if s.threads = 0 then (s, false)
  else if s.ticking then
    if s.curr - (s.now - s.start) = 0 then (setItimer s s.next s.next, true) else (s, false)
  else ({ s with threads := s.threads - 1 }, false)

/-- `RustDuration::new(tv_sec, tv_usec as u32)` in `setitimer_syscall` 850-857, in nanoseconds. -/
def durationOf (sec usec : Nat) : Nat := sec * 1000000000 + usec % 4294967296

/-- What `setitimer_syscall` 843-847 stores in `old_value`: seconds, and milliseconds in the
microseconds field. -/
def reportOf (d : Nat) : Nat × Nat := (d / 1000000000, d % 1000000000 / 1000000)

/-- A `struct itimerval`: value and interval as (seconds, microseconds). -/
structure ITimerVal where
  value : Nat × Nat
  interval : Nat × Nat
  deriving DecidableEq, Repr

/-- What can happen: time passes, a `setitimer` call, a pass of a tick thread. -/
inductive Act
  | advance (d : Nat)
  | set (v : ITimerVal)
  | tick
  deriving DecidableEq, Repr

/-- What is observed: an arm/disarm request with its time and the reported old value, a
SIGALRM with its time. -/
inductive Ev
  | set (time : Nat) (v : ITimerVal) (old : ITimerVal)
  | fire (time : Nat)
  deriving DecidableEq, Repr

/-- `setitimer_syscall` with `which = ITIMER_REAL`, 840-861. -/
def setitimerCall (s : State) (v : ITimerVal) : State × ITimerVal :=
  (setItimer s (durationOf v.value.1 v.value.2) (durationOf v.interval.1 v.interval.2),
   { value := reportOf s.curr, interval := reportOf s.next })

/-- One action. -/
def step (s : State) : Act → State × List Ev
  | .advance d => ({ s with now := s.now + d }, [])
  | .set v => ((setitimerCall s v).1, [.set s.now v (setitimerCall s v).2])
  | .tick => ((tick s).1, if (tick s).2 then [.fire s.now] else [])

/-- Run actions, collecting events. -/
def run (s : State) : List Act → State × List Ev
  | [] => (s, [])
  | a :: as =>
    let r := run (step s a).1 as
    (r.1, (step s a).2 ++ r.2)

end Verif.Timer
