import Verif.Base

/-!
# Model of advisory locks (`flock`)

`/repo/src/interface/misc.rs` 376-476 (`AdvisoryLock`) and
`/repo/src/safeposix/syscalls/fs_calls.rs` 4576-4630 (`flock_syscall`).

The lock is an integer guard (0 free, -1 exclusive, n > 0 shared n times) and a condition
variable.  Threads that must wait sleep on the condition variable; `notify` moves them to
the set of threads that will re-check the guard.
-/

namespace Verif.AdvLock

/-- The two lock modes (`LOCK_SH`, `LOCK_EX`). -/
inductive Kind | sh | ex
  deriving DecidableEq, Repr

/-- The re-check `while` condition and the assignment after it: `lock_ex` 404-407,
`lock_sh` 414-417, and the same tests in `try_lock_ex` 423-424, `try_lock_sh` 434-435
(`/repo/src/interface/misc.rs`).  `none`: must wait (or fail, for the `try` versions). -/
def acquire (guard : Int) : Kind → Option Int
  | .ex => if guard ≠ 0 then none else some (-1)
  | .sh => if guard < 0 then none else some (guard + 1)

/-- `try_lock_ex` 421-429, `try_lock_sh` 432-440: if the inner mutex is momentarily taken by
another thread (`contended`), the attempt fails. -/
def tryLock (guard : Int) (k : Kind) (contended : Bool) : Option Int :=
  if contended then none else acquire guard k

/-- Which waiters `unlock` notifies. -/
inductive Notify | none | one | all
  deriving DecidableEq, Repr

/-- `unlock`, `/repo/src/interface/misc.rs` 450-475: new guard, notification, success. -/
def unlock (guard : Int) : Int × Notify × Bool :=
  if guard > 0 then (guard - 1, if guard - 1 = 0 then .one else .none, true)
  else if guard = -1 then (0, .all, true)
  else (guard, .none, false)

/-- One lock with the threads that use it.  `held` is a ghost record of the grants that
have not been released: the code does not keep it. -/
structure Sys where
  guard : Int
  /-- asleep on the condition variable -/
  asleep : List (Nat × Kind)
  /-- notified, about to re-check the guard -/
  woken : List (Nat × Kind)
  /-- ghost: grants not yet released -/
  held : List (Nat × Kind)
  deriving DecidableEq, Repr

/-- `AdvisoryLock::new`, `/repo/src/interface/misc.rs` 393-398. -/
def Sys.init : Sys := { guard := 0, asleep := [], woken := [], held := [] }

/-- What can happen next to the lock. -/
inductive Act
  /-- blocking `flock(LOCK_SH)`/`flock(LOCK_EX)`: first check of the guard -/
  | request (tid : Nat) (k : Kind)
  /-- `flock(.. | LOCK_NB)`; `contended`: the inner mutex is taken at that instant -/
  | tryReq (tid : Nat) (k : Kind) (contended : Bool)
  /-- the `i`-th notified thread re-checks the guard -/
  | recheck (i : Nat)
  /-- `flock(LOCK_UN)` by `tid`; `pick` chooses which sleeper a `notify_one` wakes -/
  | release (tid : Nat) (pick : Nat)
  deriving DecidableEq, Repr

/-- `flock` return value of a completed step (`none`: the call has not returned). -/
abbrev Out := Option Ret

/-- Apply a notification. -/
def notify (s : Sys) (pick : Nat) : Notify → Sys
  | .none => s
  | .one =>
    match s.asleep[pick % s.asleep.length]? with
    | none => s
    | some t => { s with asleep := s.asleep.eraseIdx (pick % s.asleep.length)
                         woken := s.woken ++ [t] }
  | .all => { s with asleep := [], woken := s.woken ++ s.asleep }

/-- One step.  `flock_syscall` 4587-4625 dispatches to the lock methods. -/
def step (s : Sys) : Act → Sys × Out
  | .request tid k =>
    match acquire s.guard k with
    | some g => ({ s with guard := g, held := (tid, k) :: s.held }, some (.ok 0))
    | none => ({ s with asleep := s.asleep ++ [(tid, k)] }, none)
  | .tryReq tid k c =>
    match tryLock s.guard k c with
    | some g => ({ s with guard := g, held := (tid, k) :: s.held }, some (.ok 0))
    | none => (s, some (.err .EAGAIN))
  | .recheck i =>
    match s.woken[i]? with
    | none => (s, none)
    | some (tid, k) =>
      match acquire s.guard k with
      | some g => ({ s with guard := g, woken := s.woken.eraseIdx i
                            held := (tid, k) :: s.held }, some (.ok 0))
      | none => ({ s with asleep := s.asleep ++ [(tid, k)], woken := s.woken.eraseIdx i }, none)
  | .release tid pick =>
    let r := unlock s.guard
    (notify { s with guard := r.1
                     held := s.held.eraseP (fun h => h.1 == tid) } pick r.2.1, some (.ok 0))

/-- `operation & (LOCK_SH|LOCK_EX|LOCK_UN)` decoded; `flock_syscall` 4587-4625.
`none` is EINVAL.  The Boolean is `LOCK_NB`. -/
inductive FlockOp | lock (k : Kind) (nb : Bool) | unlock
  deriving DecidableEq, Repr

/-- `/repo/src/safeposix/syscalls/fs_calls.rs` 4587-4624 with `LOCK_SH=1, LOCK_EX=2, LOCK_NB=4,
LOCK_UN=8`. -/
def decode (operation : BitVec 32) : Option FlockOp :=
  let m := operation &&& 11#32
  let nb := operation &&& 4#32 == 4#32
  if m = 1#32 then some (.lock .sh nb)
  else if m = 2#32 then some (.lock .ex nb)
  else if m = 8#32 then some .unlock
  else none

/-! ## Several opens of one file

`_file_initializer` (`/repo/src/safeposix/syscalls/fs_calls.rs` 166-182) gives every open its own new
`AdvisoryLock`; `dup`/`fork` share it (`Arc` clone). -/

/-- The locks of all descriptors of one file, in order of opening. -/
abbrev Opens := List Int

/-- `open` of the file again: a new lock object. -/
def openAgain (o : Opens) : Opens := o ++ [0]

/-- `flock(fd, k | LOCK_NB)` on the `i`-th open. -/
def flockNb (o : Opens) (i : Nat) (k : Kind) : Opens × Ret :=
  match o[i]? with
  | none => (o, .err .EBADF)
  | some g => match tryLock g k false with
    | some g' => (o.set i g', .ok 0)
    | none => (o, .err .EAGAIN)

end Verif.AdvLock
