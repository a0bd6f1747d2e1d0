/-!
# Signals over the life of a process

Which thread a signal goes to, from `fork` over `exec` to `exit`, with the interval timer that belongs to a process.  What is modelled: the
table of cages with the field `main_threadid`, the keys of `sigset`, and the number of the parent (`/repo/src/safeposix/cage.rs` 100-124),
the timers with their threads, and the places at which signals are sent: `kill`, the end of `exit`, and a timer.

A process here is what `fork` makes and `exit` ends; `exec` may give it another number.  Processes are counted; no part of the code depends
on that count, apart from this: a process has one timer all its life (`fork` makes a new one, `/repo/src/safeposix/syscalls/sys_calls.rs` 389, `exec`
hands on the reference, 525), so timers go by process.

Simplifications: masks, handlers and pending signals are in `Signal`, durations in `Timer` (here a timer may find at any moment that its time
is up); the calls that `RUSTPOSIX_TESTSUITE` switches off are switched on; the cages' other tables are left out; a panic inside a call ends
the program (the calls come through `extern "C"`), one inside the thread of a timer ends that thread and leaves the timer's mutex poisoned.
`pthread_kill` becomes an event.
-/

namespace Verif.Life

/-- A cage, `/repo/src/safeposix/cage.rs` 100-124.  `proc` is the process it belongs to, `pproc` the process that made that. -/
structure Cage where
  proc : Nat
  parent : Nat
  pproc : Nat
  /-- `main_threadid`; 0 if no thread has been announced -/
  main : Nat
  /-- the keys of `sigset` -/
  masks : List Nat
  deriving DecidableEq, Repr

/-- `_IntervalTimer`, `/repo/src/interface/timer.rs` 37-46; `on` is `is_ticking`, `again` says that `next_duration` is not zero, `bad` that the
mutex is poisoned; `tickers` counts the threads in `tick`. -/
structure Tmr where
  cage : Nat
  on : Bool
  again : Bool
  bad : Bool
  tickers : Nat
  deriving DecidableEq, Repr

/-- A call that has taken its cage out of the table: `exec` to the number `new`, `exit` of number `num`. -/
inductive Mid
  | exec (x : Cage) (new : Nat)
  | exit (x : Cage) (num : Nat)
  deriving DecidableEq, Repr

/-- Why a signal is sent: `kill` to a number, the timer of process `p`, the end of process `q` made by `p`. -/
inductive Why
  | kill (num : Nat)
  | alarm (p : Nat)
  | child (q p : Nat)
  deriving DecidableEq, Repr

/-- What is seen. -/
inductive Ev
  | forked (p q : Nat)
  | exited (p : Nat)
  /-- `pthread_kill` -/
  | sent (tid sig : Nat) (why : Why)
  /-- the timer thread of `p` panics -/
  | tickerDied (p : Nat)
  /-- the program ends in a panic -/
  | abort
  deriving DecidableEq, Repr

/-- The state.  `owner` is which process a host thread belongs to, `given` which process a number was last given to; both are for the
statements only. -/
structure St where
  cages : Nat → Option Cage
  tmrs : Nat → Tmr
  mid : Nat → Option Mid
  procs : Nat
  owner : Nat → Option Nat
  given : Nat → Option Nat
  dead : Bool
  log : List Ev

/-- Function update. -/
def put {α : Type} (f : Nat → α) (i : Nat) (a : α) : Nat → α := fun j => if j = i then a else f j

/-- `IntervalTimer::new`, `/repo/src/interface/timer.rs` 54-65. -/
def newTmr (c : Nat) : Tmr := { cage := c, on := false, again := false, bad := false, tickers := 0 }

/-- `lindrustinit`, `/repo/src/safeposix/dispatcher.rs` 1037-1090: cages 0 and 1, each its own parent. -/
def St.init : St where
  cages n := if n < 2 then some { proc := n, parent := n, pproc := n, main := 0, masks := [] } else none
  tmrs := newTmr
  mid _ := none
  procs := 2
  owner _ := none
  given n := if n < 2 then some n else none
  dead := false
  log := []

/-- A panic in a call. -/
def St.abort (s : St) : St := { s with dead := true, log := s.log ++ [.abort] }

/-- `MAXCAGEID`, `/repo/src/interface/misc.rs` 56. -/
def maxCage : Nat := 1024

/-- What can happen. -/
inductive Act
  /-- the process with number `c` makes one with number `new` -/
  | fork (c new : Nat)
  | execBegin (c new : Nat)
  | execEnd (p : Nat)
  | exitBegin (c : Nat)
  | exitEnd (p : Nat)
  /-- the runtime announces thread `tid` -/
  | threadInit (c tid : Nat)
  /-- the runtime calls `lindsetthreadkill` on thread `tid` -/
  | setKill (c tid : Nat)
  | kill (num sig : Nat)
  | setTimer (c : Nat) (on again : Bool)
  /-- a pass of a timer thread of process `p`, which finds its time up or not -/
  | tick (p : Nat) (up : Bool)
  /-- any other call -/
  | call (c : Nat)
  deriving DecidableEq, Repr

/-- `fork_syscall`, `/repo/src/safeposix/syscalls/sys_calls.rs` 310-407: the mask of the main thread is looked up (319-325), and kept under 0 for
the child. -/
def fork (s : St) (c new : Nat) : St :=
  match s.cages c with
  | none => s.abort
  | some x =>
    if x.main ∉ x.masks ∨ maxCage ≤ new then s.abort
    else { s with
      cages := put s.cages new (some { proc := s.procs, parent := c, pproc := x.proc, main := 0, masks := [0] })
      tmrs := put s.tmrs s.procs (newTmr new)
      procs := s.procs + 1
      given := put s.given new (some s.procs)
      log := s.log ++ [.forked x.proc s.procs] }

/-- `exec_syscall`, `/repo/src/safeposix/syscalls/sys_calls.rs` 440-442. -/
def execBegin (s : St) (c new : Nat) : St :=
  match s.cages c with
  | none => s.abort
  | some x =>
    { s with cages := put s.cages c none, mid := put s.mid x.proc (some (.exec x new)), given := put s.given new (some x.proc) }

/-- The rest of `exec_syscall`, `/repo/src/safeposix/syscalls/sys_calls.rs` 484-530, with `clone_with_new_cageid`, `/repo/src/interface/timer.rs` 136-141.
Simplification: the timer gets its number in the same step in which the cage comes back into the table. -/
def execEnd (s : St) (p : Nat) : Option St :=
  match s.mid p with
  | some (.exec x new) =>
    if x.main ∉ x.masks ∨ (s.tmrs p).bad ∨ maxCage ≤ new then some s.abort
    else some { s with
      cages := put s.cages new (some { x with main := 0, masks := [0] })
      tmrs := put s.tmrs p { s.tmrs p with cage := new }
      mid := put s.mid p none }
  | _ => none

/-- `exit_syscall`, `/repo/src/safeposix/syscalls/sys_calls.rs` 563-576. -/
def exitBegin (s : St) (c : Nat) : St :=
  match s.cages c with
  | none => s.abort
  | some x =>
    { s with cages := put s.cages c none, mid := put s.mid x.proc (some (.exit x c)), log := s.log ++ [.exited x.proc] }

/-- The rest of `exit_syscall`, `/repo/src/safeposix/syscalls/sys_calls.rs` 578-590, with `lind_kill_from_id`, `/repo/src/interface/misc.rs` 368-374: the
cage must have a main thread (371).  SIGCHLD is 17. -/
def exitEnd (s : St) (p : Nat) : Option St :=
  match s.mid p with
  | some (.exit x num) =>
    some <|
      if num = x.parent then { s with mid := put s.mid p none }
      else
        match s.cages x.parent with
        | none => { s with mid := put s.mid p none }
        | some y =>
          if y.main = 0 then s.abort
          else { s with mid := put s.mid p none, log := s.log ++ [.sent y.main 17 (.child p x.pproc)] }
  | _ => none

/-- `rustposix_thread_init`, `/repo/src/safeposix/dispatcher.rs` 192-208.  A thread belongs to one process. -/
def threadInit (s : St) (c tid : Nat) : Option St :=
  match s.cages c with
  | none => some s.abort
  | some x =>
    if tid = 0 ∨ (s.owner tid ≠ none ∧ s.owner tid ≠ some x.proc) then none
    else some { s with
      cages := put s.cages c (some { x with main := tid, masks := tid :: x.masks.filter (· ≠ 0) })
      owner := put s.owner tid (some x.proc) }

/-- `lindsetthreadkill`, `/repo/src/safeposix/dispatcher.rs` 961-975, made by thread `tid`: it is the calling thread that is noted. -/
def setKill (s : St) (c tid : Nat) : Option St :=
  if tid = 0 then none
  else
    match s.cages c with
    | none => some s.abort
    | some x => some (if x.main = 0 then { s with cages := put s.cages c (some { x with main := tid }) } else s)

/-- `kill_syscall`, `/repo/src/safeposix/syscalls/sys_calls.rs` 771-786; numbers that are too big or not in use give errors (see `Signal`). -/
def kill (s : St) (num sig : Nat) : St :=
  if maxCage ≤ num then s
  else
    match s.cages num with
    | none => s
    | some y => { s with log := s.log ++ [.sent y.main sig (.kill num)] }

/-- `_set_itimer`, `/repo/src/interface/timer.rs` 74-98. -/
def Tmr.set (t : Tmr) (on again : Bool) : Tmr :=
  if on then { t with on := true, again := again, tickers := if t.on then t.tickers else t.tickers + 1 }
  else { t with on := false }

/-- `setitimer_syscall`, `/repo/src/safeposix/syscalls/sys_calls.rs` 833-866; the mutex is unwrapped (`/repo/src/interface/timer.rs` 101). -/
def setTimer (s : St) (c : Nat) (on again : Bool) : St :=
  match s.cages c with
  | none => s.abort
  | some x =>
    if (s.tmrs x.proc).bad then s.abort
    else { s with tmrs := put s.tmrs x.proc ((s.tmrs x.proc).set on again) }

/-- One pass of `tick`, `/repo/src/interface/timer.rs` 105-134.  SIGALRM is 14 (115); it is sent while the mutex is held, so that a failed
assertion in `lind_kill_from_id` (`/repo/src/interface/misc.rs` 371) poisons it. -/
def tick (s : St) (p : Nat) (up : Bool) : Option St :=
  let t := s.tmrs p
  if t.tickers = 0 then none
  else if t.bad ∨ t.on = false then some { s with tmrs := put s.tmrs p { t with tickers := t.tickers - 1 } }
  else if up = false then some s
  else
    match s.cages t.cage with
    | none => some { s with tmrs := put s.tmrs p (t.set t.again t.again) }
    | some y =>
      if y.main = 0 then
        some { s with tmrs := put s.tmrs p { t with bad := true, tickers := t.tickers - 1 }, log := s.log ++ [.tickerDied p] }
      else
        some { s with tmrs := put s.tmrs p (t.set t.again t.again), log := s.log ++ [.sent y.main 14 (.alarm p)] }

/-- Any call through `dispatcher`, `/repo/src/safeposix/dispatcher.rs` 210-222: the cage must be in the table. -/
def call (s : St) (c : Nat) : St :=
  match s.cages c with
  | none => s.abort
  | some _ => s

/-- One step; `none` if it cannot take place. -/
def step (s : St) (a : Act) : Option St :=
  if s.dead then none
  else
    match a with
    | .fork c new => some (fork s c new)
    | .execBegin c new => some (execBegin s c new)
    | .execEnd p => execEnd s p
    | .exitBegin c => some (exitBegin s c)
    | .exitEnd p => exitEnd s p
    | .threadInit c tid => threadInit s c tid
    | .setKill c tid => setKill s c tid
    | .kill num sig => some (kill s num sig)
    | .setTimer c on again => some (setTimer s c on again)
    | .tick p up => tick s p up
    | .call c => some (call s c)

/-- A run; what cannot take place is passed over. -/
def runFrom (s : St) : List Act → St
  | [] => s
  | a :: l => runFrom ((step s a).getD s) l

end Verif.Life
