import Verif.Base

/-!
# Model of semaphores

`/repo/src/interface/misc.rs` 621-703 (`RustSemaphore`), `/repo/src/safeposix/syscalls/fs_calls.rs`
6407-6818 (`sem_*_syscall`), `/repo/src/safeposix/syscalls/sys_calls.rs` 333-343 (fork shares the
semaphores), 519 (exec gets an empty table).

Each cage has a table from handles (addresses) to shared semaphore objects.
Simplification: the branch of `sem_init`/`sem_destroy` for a process-shared semaphore
whose handle lies inside an attached shared memory segment (lines 6431-6460, 6607-6638) is not
modelled here but in `SemShm`.
-/

namespace Verif.Sem

/-- `SEM_VALUE_MAX`, `/repo/src/safeposix/syscalls/fs_constants.rs`. -/
def semValueMax : Nat := 2147483647

/-- One pass of the loop of `RustSemaphore::lock` 637-650, also `trylock` 670-681 and `timedlock`
683-702: take one unit if there is one. -/
def take (value : Nat) : Option Nat :=
  if value = 0 then none else some (if value > 0 then value - 1 else 0)

/-- `RustSemaphore::unlock`, `/repo/src/interface/misc.rs` 652-663. -/
def give (value : Nat) : Option Nat :=
  if value < semValueMax then some (value + 1) else none

/-- All semaphore objects and the per-cage handle tables. -/
structure State where
  /-- values of the semaphore objects, by object identity -/
  vals : Nat → Nat
  /-- next object identity -/
  next : Nat
  /-- `sem_table` of each cage -/
  table : Nat → Nat → Option Nat

/-- No semaphores. -/
def State.init : State := { vals := fun _ => 0, next := 0, table := fun _ _ => none }

/-- Calls.  `cage` is the calling cage, `h` the handle. -/
inductive Op
  | init (cage h value : Nat)
  | wait (cage h : Nat)
  | trywait (cage h : Nat)
  /-- `expired`: the timeout passed while the value was zero -/
  | timedwait (cage h : Nat) (expired : Bool)
  | post (cage h : Nat)
  | getvalue (cage h : Nat)
  | destroy (cage h : Nat)
  | fork (parent child : Nat)
  | exec (cage new : Nat)
  deriving DecidableEq, Repr

/-- `sem_wait`, `sem_trywait`, `sem_timedwait` after the table lookup; `fail` is the outcome when
no unit is available. -/
def takeCall (s : State) (cage h : Nat) (fail : Ret) : State × Ret :=
  match s.table cage h with
  | none => (s, .err .EINVAL)
  | some id => match take (s.vals id) with
    | some v => ({ s with vals := upd s.vals id v }, .ok 0)
    | none => (s, fail)

/-- The semaphore calls. -/
def step (s : State) : Op → State × Ret
  -- `sem_init_syscall`, 6407-6465
  | .init cage h value =>
    if value > semValueMax then (s, .err .EINVAL)
    else match s.table cage h with
      | some _ => (s, .err .EBADF)
      | none => ({ vals := upd s.vals s.next value, next := s.next + 1
                   table := upd s.table cage (upd (s.table cage) h (some s.next)) }, .ok 0)
  -- `sem_wait_syscall`, 6495-6518
  | .wait cage h => takeCall s cage h .blocked
  -- `sem_trywait_syscall`, 6716-6744
  | .trywait cage h => takeCall s cage h (.err .EAGAIN)
  -- `sem_timedwait_syscall`, 6780-6818
  | .timedwait cage h expired => takeCall s cage h (if expired then .err .ETIMEDOUT else .blocked)
  -- `sem_post_syscall`, 6544-6573
  | .post cage h =>
    match s.table cage h with
    | none => (s, .err .EINVAL)
    | some id => match give (s.vals id) with
      | some v => ({ s with vals := upd s.vals id v }, .ok 0)
      | none => (s, .err .EOVERFLOW)
  -- `sem_getvalue_syscall`, 6673-6691
  | .getvalue cage h =>
    match s.table cage h with
    | none => (s, .err .EINVAL)
    | some id => (s, .ok (s.vals id))
  -- `sem_destroy_syscall`, 6600-6644
  | .destroy cage h =>
    match s.table cage h with
    | none => (s, .err .EINVAL)
    | some _ => ({ s with table := upd s.table cage (upd (s.table cage) h none) }, .ok 0)
  -- `fork_syscall`, `/repo/src/safeposix/syscalls/sys_calls.rs` 333-343, 377
  | .fork parent child => ({ s with table := upd s.table child (s.table parent) }, .ok 0)
  -- `exec_syscall`, `/repo/src/safeposix/syscalls/sys_calls.rs` 442, 519
  | .exec cage new =>
    ({ s with table := upd (upd s.table cage fun _ => none) new fun _ => none }, .ok 0)

/-- The semaphore object the handle of a call designates (for `init`: the new object). -/
def obj (s : State) : Op → Option Nat
  | .init .. => some s.next
  | .wait c h => s.table c h
  | .trywait c h => s.table c h
  | .timedwait c h _ => s.table c h
  | .post c h => s.table c h
  | .getvalue c h => s.table c h
  | .destroy c h => s.table c h
  | .fork .. => none
  | .exec .. => none

/-- Run a history, collecting each call with the object its handle designated and its result. -/
def run (s : State) : List Op → State × List (Op × Option Nat × Ret)
  | [] => (s, [])
  | op :: ops =>
    let r := run (step s op).1 ops
    (r.1, (op, obj s op, (step s op).2) :: r.2)

end Verif.Sem
