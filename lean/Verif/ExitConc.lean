import Verif.Base

/-!
# A process exits while its other threads are in calls

Model of `exit_syscall` (`/repo/src/safeposix/syscalls/sys_calls.rs` 563-591): it closes the descriptors one after the other with
`_close_helper` (`/repo/src/safeposix/syscalls/fs_calls.rs` 3595-3844), each in two steps under separate locks of the slot, and then
removes the cage from the table.  Other threads of the process go on meanwhile, with the calls that they are in and with new ones.
The objects are pipes (`/repo/src/interface/pipe.rs`): `read` and `write` keep the lock of the slot while they wait
(`fs_calls.rs` 1584, 1704-1737 and 2016).

Simplifications: a critical section that waits for nothing is one step, and so are `dup`, `pipe` and `fork` (their inside is in
`FdConc` and `FdFork`; a `pipe` that finds fewer than two free slots changes nothing); a lock may be taken whenever it is free;
bytes are only counted, and a `read` that waits for nothing is one step (`Pipe` has its inside, and `read_eof_violated`); fewer than 2^32 descriptors refer to one pipe;
descriptors outside of the table are answered with `EBADF` (in the code an abort: C58); the descriptors of all other processes are taken together;
threads are not cancelled.  Memory mappings, the output stream and the signal to the parent are not part of this file (`Shm`,
`SigLife`).
-/

namespace Verif.ExitConc

abbrev Tid := Nat
abbrev Fd := Nat

/-- One end of a pipe: `PipeDesc` with the access mode in its flags, `/repo/src/safeposix/cage.rs` 85-90. -/
structure End where
  pipe : Nat
  wr : Bool
  deriving DecidableEq, Repr

/-- Sizes: slots of the table (`MAXFD`), capacity of a pipe (`PIPE_CAPACITY`), room that a writer waits for (`PAGE_SIZE`). -/
structure Cfg where
  N : Nat
  cap : Nat
  page : Nat
  deriving Repr

/-- The calls of threads of the process. -/
inductive Op
  | read (fd n : Nat)
  | write (fd n : Nat)
  | close (fd : Fd)
  | dup (fd : Fd)
  | pipe
  | fork
  | exit
  deriving DecidableEq, Repr

/-- Where a thread is. -/
inductive Pc
  | idle
  /-- about to take the first lock -/
  | begun (op : Op)
  /-- waits for bytes, with the lock of the slot: `fs_calls.rs` 1704-1737 -/
  | reading (fd p n : Nat)
  /-- waits for room, with the lock of the slot: `pipe.rs` 249-285; `todo` of `n` bytes are missing -/
  | writing (fd p todo n : Nat)
  /-- between the two parts of `_close_helper`, `fs_calls.rs` 3822-3835 -/
  | closing (fd : Fd)
  /-- in the loop of `exit_syscall`, 570-573; `half`: between the two parts of `_close_helper` -/
  | exiting (k : Nat) (half : Bool)
  /-- `exit_syscall` has returned -/
  | ended
  deriving DecidableEq, Repr

/-- The process, its pipes and the other processes. -/
structure St where
  /-- the table of descriptors -/
  slot : Fd → Option End
  /-- who keeps the lock of a slot over several steps -/
  lock : Fd → Option Tid
  /-- `refcount_read`, `refcount_write` -/
  cnt : End → Nat
  /-- not in the code: the descriptors of the other processes -/
  ext : End → Nat
  /-- bytes in the pipe -/
  data : Nat → Nat
  /-- pipes made so far -/
  np : Nat
  pc : Tid → Pc
  /-- the cage is out of the table of cages -/
  gone : Bool
  /-- not in the code: the object in this slot has been released already -/
  rel : Fd → Bool
  /-- what calls of the process have answered -/
  log : List (Tid × Op × Ret)

/-- `fetch_sub(1)` of a `u32`, `/repo/src/interface/pipe.rs` 138-145. -/
def dec (n : Nat) : Nat := if n = 0 then 4294967295 else n - 1

/-- `fetch_add(1)`, 120-127, or `fetch_sub(1)` of the counter of an end. -/
def setc (c : End → Nat) (e : End) (v : Nat) : End → Nat := fun x => if x = e then v else c x

/-- `read_from_pipe`, `/repo/src/interface/pipe.rs` 403-463, of `n` bytes: what it takes and answers, or `none`: it waits. -/
def readNow (s : St) (p n : Nat) : Option (Nat × Ret) :=
  if n = 0 then some (0, .ok 0)
  else if s.data p = 0 then (if s.cnt ⟨p, true⟩ = 0 then some (0, .ok 0) else none)
  else some (min n (s.data p), .ok (min n (s.data p) : Nat))

/-- One round of the loop of `write_to_pipe`, `/repo/src/interface/pipe.rs` 249-285, with `todo` bytes to write: the bytes put into
the pipe, or broken pipe; `none`: it waits. -/
def writeNow (c : Cfg) (s : St) (p todo : Nat) : Option (Option Nat) :=
  if todo = 0 then some (some 0)
  else if s.cnt ⟨p, false⟩ = 0 then some none
  else if c.cap - s.data p < c.page then none
  else some (some (min todo (c.cap - s.data p)))

/-- A call returns. -/
def ret (s : St) (t : Tid) (op : Op) (r : Ret) : St :=
  { s with pc := upd s.pc t .idle, log := s.log ++ [(t, op, r)] }

/-- `get_next_fd`, `/repo/src/safeposix/cage.rs` 127-160: the lowest slot from `k` that is free and not locked. -/
def free (s : St) : Nat → Nat → Option Nat
  | _, 0 => none
  | k, m + 1 => if s.slot k = none ∧ s.lock k = none then some k else free s (k + 1) m

/-- How many slots hold this end. -/
def held (c : Cfg) (s : St) (e : End) : Nat := (List.range c.N).countP fun k => s.slot k == some e

/-- First part of `_close_helper` for a slot in use, `fs_calls.rs` 3668-3672. -/
def release (s : St) (fd : Fd) (e : End) : St :=
  { s with cnt := setc s.cnt e (dec (s.cnt e)), rel := upd s.rel fd true }

/-- Second part, 3835-3842. -/
def empty (s : St) (fd : Fd) : St := { s with slot := upd s.slot fd none, rel := upd s.rel fd false }

/-- The first steps of a call that needs the slot `fd` and has got its lock. -/
def first (c : Cfg) (s : St) (t : Tid) (op : Op) : Option St :=
  match op with
  | .read fd n =>
    match s.slot fd with
    | none => some (ret s t op (.err .EBADF))
    | some e =>
      if e.wr then some (ret s t op (.err .EBADF))
      else
        match readNow s e.pipe n with
        | some (m, r) => some (ret { s with data := upd s.data e.pipe (s.data e.pipe - m) } t op r)
        | none => some { s with pc := upd s.pc t (.reading fd e.pipe n), lock := upd s.lock fd (some t) }
  | .write fd n =>
    match s.slot fd with
    | none => some (ret s t op (.err .EBADF))
    | some e =>
      if !e.wr then some (ret s t op (.err .EBADF))
      else some { s with pc := upd s.pc t (.writing fd e.pipe n n), lock := upd s.lock fd (some t) }
  | .close fd =>
    match s.slot fd with
    | none => some (ret s t op (.err .EBADF))
    | some e => some { release s fd e with pc := upd s.pc t (.closing fd) }
  | .dup fd =>
    -- `fs_calls.rs` 3288: `dup` of descriptor 0 is descriptor 0
    if fd = 0 then some (ret s t op (.ok 0))
    else
      match s.slot fd with
      | none => some (ret s t op (.err .EBADF))
      | some e =>
        match free s 0 c.N with
        | none => some (ret s t op (.err .ENFILE))
        | some k => some (ret { s with slot := upd s.slot k (some e), cnt := setc s.cnt e (s.cnt e + 1) } t op (.ok (k : Nat)))
  | .pipe =>
    match free s 0 c.N with
    | none => some (ret s t op (.err .ENFILE))
    | some k =>
      match free s (k + 1) (c.N - (k + 1)) with
      | none => some (ret s t op (.err .ENFILE))
      | some j =>
        some (ret { s with slot := upd (upd s.slot k (some ⟨s.np, false⟩)) j (some ⟨s.np, true⟩)
                           cnt := setc (setc s.cnt ⟨s.np, false⟩ 1) ⟨s.np, true⟩ 1
                           data := upd s.data s.np 0, np := s.np + 1 } t op (.ok 0))
  -- `sys_calls.rs` 200-284: it waits for each slot
  | .fork =>
    if ∃ k ∈ List.range c.N, s.lock k ≠ none then none
    else some (ret { s with ext := fun e => s.ext e + held c s e, cnt := fun e => s.cnt e + held c s e } t op (.ok 0))
  | .exit => some { s with pc := upd s.pc t (.exiting 0 false) }

/-- The slot whose lock a call takes first. -/
def Op.slot? : Op → Option Fd
  | .read fd _ | .write fd _ | .close fd | .dup fd => some fd
  | _ => none

/-- The next step of a thread; `none`: it waits, or is in no call. -/
def step (c : Cfg) (s : St) (t : Tid) : Option St :=
  match s.pc t with
  | .idle | .ended => none
  | .begun op =>
    match op.slot? with
    | some fd => if s.lock fd = none then first c s t op else none
    | none => first c s t op
  | .reading fd p n =>
    match readNow s p n with
    | none => none
    | some (m, r) =>
      some (ret { s with data := upd s.data p (s.data p - m), lock := upd s.lock fd none } t (.read fd n) r)
  | .writing fd p todo n =>
    match writeNow c s p todo with
    | none => none
    | some none => some (ret { s with lock := upd s.lock fd none } t (.write fd n) (.err .EPIPE))
    | some (some m) =>
      if m = todo then
        some (ret { s with data := upd s.data p (s.data p + m), lock := upd s.lock fd none } t (.write fd n) (.ok (n : Nat)))
      else some { s with data := upd s.data p (s.data p + m), pc := upd s.pc t (.writing fd p (todo - m) n) }
  | .closing fd => if s.lock fd = none then some (ret (empty s fd) t (.close fd) (.ok 0)) else none
  | .exiting k half =>
    if k < c.N then
      if s.lock k = none then
        if half then some { empty s k with pc := upd s.pc t (.exiting (k + 1) false) }
        else
          match s.slot k with
          | none => some { s with pc := upd s.pc t (.exiting (k + 1) false) }
          | some e => some { release s k e with pc := upd s.pc t (.exiting k true) }
      else none
    -- `cagetable_remove`, `sys_calls.rs` 576
    else some { s with gone := true, pc := upd s.pc t .ended, log := s.log ++ [(t, .exit, .ok 0)] }

/-- What can happen. -/
inductive Act
  /-- a thread of the process makes a call; once the cage is out of the table, this aborts (`cagetable_getref`,
  `/repo/src/interface/misc.rs` 83-86) -/
  | enter (t : Tid) (op : Op)
  /-- its next step -/
  | run (t : Tid)
  /-- another process reads, writes, closes or copies a descriptor; calls that would wait do nothing -/
  | oread (p n : Nat)
  | owrite (p n : Nat)
  | oclose (e : End)
  | odup (e : End)
  deriving DecidableEq, Repr

/-- One action; what is not possible changes nothing. -/
def act (c : Cfg) (s : St) : Act → St
  | .enter t op => if s.pc t = .idle ∧ s.gone = false then { s with pc := upd s.pc t (.begun op) } else s
  | .run t => (step c s t).getD s
  | .oread p n =>
    if s.ext ⟨p, false⟩ = 0 then s
    else match readNow s p n with
      | none => s
      | some (m, _) => { s with data := upd s.data p (s.data p - m) }
  | .owrite p n =>
    if s.ext ⟨p, true⟩ = 0 then s
    else match writeNow c s p n with
      | some (some m) => { s with data := upd s.data p (s.data p + m) }
      | _ => s
  | .oclose e =>
    if s.ext e = 0 then s else { s with ext := setc s.ext e (s.ext e - 1), cnt := setc s.cnt e (dec (s.cnt e)) }
  | .odup e => if s.ext e = 0 then s else { s with ext := setc s.ext e (s.ext e + 1), cnt := setc s.cnt e (s.cnt e + 1) }

/-- A whole schedule. -/
def exec (c : Cfg) (s : St) : List Act → St
  | [] => s
  | a :: l => exec c (act c s a) l

/-- Nobody is in a call; the process has these descriptors, the others those; pipes are numbered below `np`. -/
def atRest (c : Cfg) (slot : Fd → Option End) (ext : End → Nat) (data : Nat → Nat) (np : Nat) : St :=
  { slot := slot, lock := fun _ => none
    cnt := fun e => ext e + (List.range c.N).countP fun k => slot k == some e
    ext := ext, data := data, np := np, pc := fun _ => .idle, gone := false, rel := fun _ => false, log := [] }

end Verif.ExitConc
