import Verif.AdvLock

/-!
# Threads that lock a file, use it and unlock it

`AdvLock` is one lock with those who ask for it.  Here are the descriptors between the threads and the locks: `flock`
(`/repo/src/safeposix/syscalls/fs_calls.rs` 4576-4630) keeps its slot of the descriptor table for reading (4578) while it waits for the advisory lock,
and the other calls on the descriptor take the slot too.  The slots are `parking_lot` locks (`/repo/src/safeposix/cage.rs` 60-110,
`/repo/src/interface/misc.rs` 8-30): a writer that waits keeps new readers out.

Descriptors of all cages are numbered through.  A call other than a waiting `flock` does its work in one step, once it has the slot: none of
them waits for anything another modelled thread holds (pipes and sockets are C83 and C91, locks on inodes C89).  A thread that waits in `lock_ex`/`lock_sh` looks at the
lock whenever it likes: that wake-ups are not lost is C06.
-/

namespace Verif.FlockConc
open Verif.AdvLock

/-- The calls on a descriptor. -/
inductive Op
  /-- `flock(LOCK_SH)`, `flock(LOCK_EX)` -/
  | lock (k : Kind)
  /-- with `LOCK_NB`; `c`: the inner mutex of the lock is taken just then -/
  | tryLock (k : Kind) (c : Bool)
  /-- `flock(LOCK_UN)` -/
  | unlock
  /-- calls that take the slot for writing: `read`, `write`, `pread`, `pwrite`, `writev`, `lseek`, `fcntl`, `ioctl`, `fsync`, `getdents`, `mmap` -/
  | use
  /-- calls that take it for reading: `fstat`, `fstatfs`, `ftruncate`, `fchmod`, `fchdir` -/
  | look
  | close
  /-- `dup`, `fcntl(F_DUPFD)`: to the free descriptor `n` -/
  | dup (n : Nat)
  /-- `fork`: the child's descriptor is `n` -/
  | copy (n : Nat)
  deriving DecidableEq, Repr

/-- Which calls take the slot for writing: `/repo/src/safeposix/syscalls/fs_calls.rs` 1584 (read), 2016 (write), 2836 (lseek), 3297 (dup), 3601 and 3836 (close),
3886 (fcntl), 4032 (ioctl), 5438 (getdents); for reading: 1317 (fstat), 4305 (fchmod), 4578 (flock), 5225 (ftruncate),
`/repo/src/safeposix/syscalls/sys_calls.rs` 209 (fork). -/
def Op.writes : Op → Bool
  | .use | .close | .dup _ => true
  | _ => false

/-- Where a thread is. -/
inductive Ph
  | idle
  /-- it has made a call and does not have the slot -/
  | call (fd : Nat) (op : Op)
  /-- it waits for the slot, for writing -/
  | queued (fd : Nat) (op : Op)
  /-- in `lock_sh`/`lock_ex`, with the slot for reading, waiting for lock `o` -/
  | wait (fd o : Nat) (k : Kind)
  deriving DecidableEq, Repr

/-- The state.  `held` is a record of the locks granted and not given back, which the code does not keep. -/
structure St where
  thr : List Ph
  /-- which lock a descriptor has: `advlock`, an `Arc`, `/repo/src/safeposix/cage.rs` 57-100 -/
  fds : Nat → Option Nat
  guard : Nat → Int
  next : Nat
  held : List (Nat × Nat × Kind)
  log : List (Nat × Nat × Op × Ret)

/-- `N` threads, nothing open. -/
def init (N : Nat) : St := { thr := List.replicate N .idle, fds := fun _ => none, guard := fun _ => 0, next := 0, held := [], log := [] }

/-- Somebody has the slot for reading for long. -/
def waiter (s : St) (fd : Nat) : Bool := s.thr.any fun p => match p with | .wait f _ _ => f == fd | _ => false

/-- Somebody waits for the slot, for writing. -/
def queue (s : St) (fd : Nat) : Bool := s.thr.any fun p => match p with | .queued f _ => f == fd | _ => false

/-- The call returns. -/
def ret (s : St) (t fd : Nat) (op : Op) (r : Ret) : St := { s with thr := s.thr.set t .idle, log := s.log ++ [(t, fd, op, r)] }

/-- What a call does once it has the slot of `fd`. -/
def perform (s : St) (t fd : Nat) (op : Op) : Option St :=
  match s.fds fd with
  /- `/repo/src/safeposix/syscalls/fs_calls.rs` 4627 and likewise in the other calls; `fork` passes over it (`sys_calls.rs` 210) -/
  | none => some (ret s t fd op (.err .EBADF))
  | some o =>
    match op with
    /- 4588-4600 and 4601-4613, `lock_sh`, `lock_ex`: `/repo/src/interface/misc.rs` 402-418 -/
    | .lock k =>
      match acquire (s.guard o) k with
      | some g => some (ret { s with guard := upd s.guard o g, held := (t, o, k) :: s.held } t fd op (.ok 0))
      | none => some { s with thr := s.thr.set t (.wait fd o k) }
    | .tryLock k c =>
      match tryLock (s.guard o) k c with
      | some g => some (ret { s with guard := upd s.guard o g, held := (t, o, k) :: s.held } t fd op (.ok 0))
      | none => some (ret s t fd op (.err .EAGAIN))
    /- 4614-4620: the result of `unlock` is not looked at -/
    | .unlock => some (ret { s with guard := upd s.guard o (AdvLock.unlock (s.guard o)).1
                                    held := s.held.eraseP (fun h => h.1 == t && h.2.1 == o) } t fd op (.ok 0))
    | .use | .look => some (ret s t fd op (.ok 0))
    /- 3838-3843 -/
    | .close => some (ret { s with fds := upd s.fds fd none } t fd op (.ok 0))
    /- `_dup2_helper` 3420-3490: a clone of the descriptor, with the same `advlock`; `fork` likewise (`sys_calls.rs` 205-285) -/
    | .dup n => if s.fds n = none then some (ret { s with fds := upd s.fds n (some o) } t fd op (.ok n)) else none
    | .copy n => if s.fds n = none then some (ret { s with fds := upd s.fds n (some o) } t fd op (.ok 0)) else none

/-- What can happen. -/
inductive Act
  /-- `open`, to the free descriptor `fd`: `get_next_fd` does not wait for slots (`/repo/src/safeposix/cage.rs` 127-159) -/
  | «open» (fd : Nat)
  /-- thread `t` makes a call -/
  | call (t fd : Nat) (op : Op)
  /-- it tries to get the slot, and does its call -/
  | go (t : Nat)
  /-- it looks at the advisory lock again -/
  | grant (t : Nat)
  deriving DecidableEq, Repr

/-- One step; `none`: it cannot happen now. -/
def step (s : St) : Act → Option St
  /- `_file_initializer`, `/repo/src/safeposix/syscalls/fs_calls.rs` 166-182: a new lock -/
  | .open fd => if s.fds fd = none then some { s with fds := upd s.fds fd (some s.next), guard := upd s.guard s.next 0, next := s.next + 1 } else none
  | .call t fd op => if s.thr[t]? = some .idle then some { s with thr := s.thr.set t (.call fd op) } else none
  | .go t =>
    match s.thr[t]? with
    | some (.call fd op) =>
      if op.writes then
        if waiter s fd then some { s with thr := s.thr.set t (.queued fd op) } else perform s t fd op
      else if queue s fd then none else perform s t fd op
    | some (.queued fd op) => if waiter s fd then none else perform s t fd op
    | _ => none
  /- `/repo/src/interface/misc.rs` 404-407, 414-417 -/
  | .grant t =>
    match s.thr[t]? with
    | some (.wait fd o k) =>
      match acquire (s.guard o) k with
      | some g => some (ret { s with guard := upd s.guard o g, held := (t, o, k) :: s.held } t fd (.lock k) (.ok 0))
      | none => none
    | _ => none

/-- Any sequence of steps; those that cannot happen are passed over. -/
def run (s : St) : List Act → St
  | [] => s
  | a :: l => run ((step s a).getD s) l

end Verif.FlockConc
