/-!
# The descriptor table under concurrent calls

The table of a cage is a vector of slots, each behind its own reader-writer lock
(src/safeposix/cage.rs 102, 127-160, 187-196).  Several threads of the cage work on it at once:
`open`/`pipe`/`socket`/`accept` (through `get_next_fd`), `dup`, `dup2`
(src/safeposix/syscalls/fs_calls.rs 3290-3530), `close` (3595-3844) and calls that merely use a
descriptor.  This file models their lock operations as atomic steps that may interleave in any
order.

Simplifications: a critical section that only reads or changes the table and waits for nothing is
one step; that other threads can find such a slot locked is covered by `use`, which may hold the
lock of any slot for any time.  Objects carry one reference count (`refs`), standing for the inode,
pipe or socket counts.  Upgrading fairness of the locks is not modelled: a lock may be taken
whenever it is free.
-/

namespace Verif.FdConc

abbrev Tid := Nat
abbrev Fd := Nat
abbrev Obj := Nat

/-- The calls. -/
inductive Op
  /-- open, pipe end, socket, accept: put the new object into the lowest free slot -/
  | openObj (o : Obj)
  /-- `dup(old)` / `fcntl(F_DUPFD)`, searching from `start` -/
  | dup (old start : Fd)
  | dup2 (old new : Fd)
  | close (fd : Fd)
  /-- any call that looks a descriptor up and works under its (read) lock -/
  | use (fd : Fd)
  deriving DecidableEq, Repr

/-- Where a thread is. -/
inductive Pc
  | idle
  /-- in `get_next_fd`, about to `try_write` slot `fd`; `held` is the slot whose lock `dup` holds -/
  | scan (fd : Fd) (o : Obj) (held : Option Fd)
  /-- got the empty slot `fd` locked, about to insert -/
  | store (fd : Fd) (o : Obj) (held : Option Fd)
  /-- about to lock `old` -/
  | dupLock (old start : Fd)
  | dup2Lock (old new : Fd)
  /-- holds `old`; about to look whether `new` is in use (fs_calls.rs 3424-3426) -/
  | dup2Probe (old new : Fd) (o : Obj)
  /-- holds `old`; about to release what `new` holds (3429-3431) -/
  | dup2Close (old new : Fd) (o : Obj)
  /-- holds `old`; about to lock `new` again and insert (3434, 3451-3527) -/
  | dup2Put (old new : Fd) (o : Obj)
  /-- about to release the object of `fd` (`_close_helper_inner`) -/
  | closeInner (fd : Fd)
  /-- about to empty the slot (`_close_helper`, 3835-3842) -/
  | closeTake (fd : Fd)
  | useLock (fd : Fd)
  | using (fd : Fd)
  deriving DecidableEq, Repr

/-- The table, its locks, the reference counts and the threads. -/
structure St where
  val : Fd → Option Obj
  /-- who holds the write lock of a slot -/
  wr : Fd → Option Tid
  /-- who holds its read lock -/
  rd : Fd → List Tid
  refs : Obj → Int
  pc : Tid → Pc

/-- Function update. -/
def set {α : Type} (f : Nat → α) (k : Nat) (v : α) : Nat → α := fun i => if i = k then v else f i

/-- Can the write lock be taken (`write`, `try_write`)? -/
def St.free (s : St) (fd : Fd) : Bool := s.wr fd = none && (s.rd fd).isEmpty

/-- Dropping the guard of `old`, if one is held. -/
def drop? (wr : Fd → Option Tid) : Option Fd → (Fd → Option Tid)
  | none => wr
  | some fd => set wr fd none

/-- Calls entering (the range checks of fs_calls.rs 3344-3354 and cage.rs 191 have passed;
`dup2(a, a)` returns at once). -/
def begin (s : St) (t : Tid) : Op → St
  | .openObj o => { s with pc := set s.pc t (.scan 0 o none) }
  | .dup old start => { s with pc := set s.pc t (.dupLock old start) }
  | .dup2 old new =>
    if old = new then s else { s with pc := set s.pc t (.dup2Lock old new) }
  | .close fd => { s with pc := set s.pc t (.closeInner fd) }
  | .use fd => { s with pc := set s.pc t (.useLock fd) }

/-- Outcome of a step. -/
inductive Out
  /-- the call goes on -/
  | more
  /-- it returns this descriptor -/
  | fd (n : Fd)
  /-- it returns 0 -/
  | zero
  | EBADF
  | ENFILE
  deriving DecidableEq, Repr

/-- One step of thread `t`; `none` when it is idle or has to wait for a lock.  `N` is `MAXFD`. -/
def go (N : Nat) (s : St) (t : Tid) : Option (St × Out) :=
  match s.pc t with
  | .idle => none
  | .scan fd o held =>                               -- cage.rs 140-149
    if N ≤ fd then
      some ({ s with wr := drop? s.wr held, pc := set s.pc t .idle }, .ENFILE)
    else if s.free fd && (s.val fd).isNone then
      some ({ s with wr := set s.wr fd (some t), pc := set s.pc t (.store fd o held) }, .more)
    else some ({ s with pc := set s.pc t (.scan (fd + 1) o held) }, .more)
  | .store fd o held =>                              -- e.g. fs_calls.rs 3527, 5358
    some ({ s with
      val := set s.val fd (some o)
      refs := set s.refs o (s.refs o + 1)
      wr := drop? (set s.wr fd none) held
      pc := set s.pc t .idle }, .fd fd)
  | .dupLock old start =>                            -- fs_calls.rs 3293-3305
    if s.free old then
      match s.val old with
      | none => some ({ s with pc := set s.pc t .idle }, .EBADF)
      | some o => some ({ s with
          wr := set s.wr old (some t)
          pc := set s.pc t (.scan start o (some old)) }, .more)
    else none
  | .dup2Lock old new =>                             -- 3357-3369
    if s.free old then
      match s.val old with
      | none => some ({ s with pc := set s.pc t .idle }, .EBADF)
      | some o => some ({ s with
          wr := set s.wr old (some t)
          pc := set s.pc t (.dup2Probe old new o) }, .more)
    else none
  | .dup2Probe old new o =>                          -- 3424-3426
    if s.free new then
      if (s.val new).isSome then
        some ({ s with pc := set s.pc t (.dup2Close old new o) }, .more)
      else some ({ s with pc := set s.pc t (.dup2Put old new o) }, .more)
    else none
  | .dup2Close old new o =>                          -- 3430 and 3600-3787
    if s.free new then
      match s.val new with
      | none => some ({ s with pc := set s.pc t (.dup2Put old new o) }, .more)
      | some p => some ({ s with
          refs := set s.refs p (s.refs p - 1)
          pc := set s.pc t (.dup2Put old new o) }, .more)
    else none
  | .dup2Put old new o =>                            -- 3434, 3451-3529
    if s.free new then
      some ({ s with
        val := set s.val new (some o)
        refs := set s.refs o (s.refs o + 1)
        wr := set s.wr old none
        pc := set s.pc t .idle }, .fd new)
    else none
  | .closeInner fd =>                                -- 3600-3787
    if s.free fd then
      match s.val fd with
      | none => some ({ s with pc := set s.pc t .idle }, .EBADF)
      | some o => some ({ s with
          refs := set s.refs o (s.refs o - 1)
          pc := set s.pc t (.closeTake fd) }, .more)
    else none
  | .closeTake fd =>                                 -- 3835-3843
    if s.free fd then
      some ({ s with val := set s.val fd none, pc := set s.pc t .idle }, .zero)
    else none
  | .useLock fd =>
    if s.wr fd = none then
      some ({ s with rd := set s.rd fd (t :: s.rd fd), pc := set s.pc t (.using fd) }, .more)
    else none
  | .using fd =>
    some ({ s with rd := set s.rd fd ((s.rd fd).filter (fun u => u ≠ t))
                   pc := set s.pc t .idle }, .zero)

/-- A cage at rest with a given table of `N` slots: no locks, nobody busy, counts equal to the number of
descriptors. -/
def atRest (N : Nat) (val : Fd → Option Obj) : St :=
  { val := fun fd => if fd < N then val fd else none, wr := fun _ => none, rd := fun _ => []
    refs := fun o => (((List.range N).filter fun fd => val fd = some o).length : Nat)
    pc := fun _ => .idle }

/-- What the scheduler can do: let an idle thread enter a call, or let a thread take a step. -/
inductive Act
  | enter (t : Tid) (op : Op)
  | run (t : Tid)
  deriving DecidableEq, Repr

/-- One action; an action that is not possible leaves the state alone. -/
def act (N : Nat) (s : St) : Act → St
  | .enter t op => if s.pc t = .idle then begin s t op else s
  | .run t => match go N s t with
    | some (s', _) => s'
    | none => s

/-- A whole schedule. -/
def exec (N : Nat) (s : St) (as : List Act) : St := as.foldl (act N) s

end Verif.FdConc
