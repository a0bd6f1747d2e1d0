import Verif.Base

/-!
# Model of mutex and condition variable handles

`/repo/src/safeposix/syscalls/fs_calls.rs` 5962-6360 (`mutex_*_syscall`, `cond_*_syscall`),
`/repo/src/interface/misc.rs` 478-613 (`RawMutex`, `RawCondvar`),
`/repo/src/safeposix/syscalls/sys_calls.rs` 112-199 (fork), 517-518 (exec), 576 (exit).

Each cage has one table of mutexes and one of condition variables; a handle is an index.
The host objects (`pthread_mutex_t`, `pthread_cond_t` behind an `Rc`) are identified by the order
of their creation.  A mutex object is locked or not; who waits on a condition variable is not
modelled.  A call clones the reference before it uses the object, so an object outlives the
destruction of its handle; the model keeps every object.
-/

namespace Verif.Handles

/-- The two tables of a cage, `/repo/src/safeposix/cage.rs` (`mutex_table`, `cv_table`). -/
inductive Kind
  | mutex | cond
  deriving DecidableEq, Repr

/-- The tables of every cage and the host objects. -/
structure State where
  /-- the handle tables: entry `i` is the object with handle `i`, if any -/
  tab : Nat → Kind → List (Option Nat)
  /-- mutex objects that are locked -/
  locked : Nat → Bool
  /-- number of objects created so far -/
  next : Nat

/-- Every cage starts with empty tables, `/repo/src/safeposix/dispatcher.rs` 1028-1094. -/
def init : State := { tab := fun _ _ => [], locked := fun _ => false, next := 0 }

/-- Rust's `as i32` on a table length or index. -/
@[irreducible] def asI32 (n : Nat) : Int := (BitVec.ofNat 32 n).toInt

/-- The loop of 5964-5970 (6124-6130): the first empty entry. -/
def firstFree : List (Option Nat) → Option Nat
  | [] => none
  | none :: _ => some 0
  | some _ :: t => (firstFree t).map (· + 1)

/-- Lines 5972-5977: the index used and the table, one entry longer if it was full. -/
def claim (t : List (Option Nat)) : Nat × List (Option Nat) :=
  match firstFree t with
  | some i => (i, t)
  | none => (t.length, t ++ [none])

/-- The check at the head of every call: `h < len as i32 && h >= 0 && table[h].is_some()`,
fs_calls.rs 5998-6000 and the like. -/
def find (t : List (Option Nat)) (h : Int) : Option Nat :=
  if h < asI32 t.length ∧ 0 ≤ h then (t[h.toNat]?).getD none else none

/-- Replace one table of one cage. -/
def State.setTab (s : State) (c : Nat) (k : Kind) (t : List (Option Nat)) : State :=
  { s with tab := fun c' k' => if c' = c ∧ k' = k then t else s.tab c' k' }

/-- `mutex_create_syscall` 5962-5994, `cond_create_syscall` 6122-6154.  `fail` is the error of the
host's `pthread_*_init`, if it fails (an error number the code does not know would panic; host
initialisation as used here does not fail). -/
def create (s : State) (c : Nat) (k : Kind) (fail : Option Errno) : State × Ret :=
  match fail with
  | some e => (s.setTab c k (claim (s.tab c k)).2, .err e)
  | none =>
    ({ s.setTab c k ((claim (s.tab c k)).2.set (claim (s.tab c k)).1 (some s.next)) with
        locked := upd s.locked s.next false, next := s.next + 1 },
      .ok (asI32 (claim (s.tab c k)).1))

/-- `mutex_destroy_syscall` 5996-6016, `cond_destroy_syscall` 6156-6176. -/
def destroy (s : State) (c : Nat) (k : Kind) (h : Int) : State × Ret :=
  match find (s.tab c k) h with
  | some _ => (s.setTab c k ((s.tab c k).set h.toNat none), .ok 0)
  | none => (s, .err .EBADF)

/-- `pthread_mutex_lock` on a default mutex: waits while it is locked. -/
def lockObj (s : State) (o : Nat) : State × Ret :=
  if s.locked o then (s, .blocked) else ({ s with locked := upd s.locked o true }, .ok 0)

/-- `mutex_lock_syscall` 6018-6050. -/
def lock (s : State) (c : Nat) (h : Int) : State × Ret :=
  match find (s.tab c .mutex) h with
  | some o => lockObj s o
  | none => (s, .err .EBADF)

/-- `mutex_trylock_syscall` 6052-6084.  `pthread_mutex_trylock` reports a locked mutex by
returning the positive number 16 (`EBUSY`); the code only looks for negative results and returns
it unchanged. -/
def trylock (s : State) (c : Nat) (h : Int) : State × Ret :=
  match find (s.tab c .mutex) h with
  | some o => if s.locked o then (s, .ok 16) else ({ s with locked := upd s.locked o true }, .ok 0)
  | none => (s, .err .EBADF)

/-- `mutex_unlock_syscall` 6086-6118; a default mutex does not check its owner. -/
def unlock (s : State) (c : Nat) (h : Int) : State × Ret :=
  match find (s.tab c .mutex) h with
  | some o => ({ s with locked := upd s.locked o false }, .ok 0)
  | none => (s, .err .EBADF)

/-- `cond_signal_syscall` 6178-6210, `cond_broadcast_syscall` 6212-6244; the wake-ups are
not modelled. -/
def signal (s : State) (c : Nat) (h : Int) : State × Ret :=
  match find (s.tab c .cond) h with
  | some _ => (s, .ok 0)
  | none => (s, .err .EBADF)

/-- `cond_wait_syscall` 6246-6306 and `cond_timedwait_syscall` 6308-6360 up to the sleep: the
mutex is released and the thread sleeps. -/
def wait (s : State) (c : Nat) (cv m : Int) : State × Ret :=
  match find (s.tab c .cond) cv with
  | some _ =>
    match find (s.tab c .mutex) m with
    | some o => ({ s with locked := upd s.locked o false }, .blocked)
    | none => (s, .err .EBADF)
  | none => (s, .err .EBADF)

/-- The end of a `cond_wait` (result 0) or `cond_timedwait` (result 0 or, when the time is over,
the positive 110): the thread holds a reference to the mutex object and takes it again. -/
def wake (s : State) (o : Nat) (expired : Bool) : State × Ret :=
  if s.locked o then (s, .blocked)
  else ({ s with locked := upd s.locked o true }, .ok (if expired then 110 else 0))

/-- The loops of fork, sys_calls.rs 118-154 and 165-198: a new object for every object, an empty
entry for every empty entry.  `n` is the number of the next object. -/
def copyTab (n : Nat) : List (Option Nat) → List (Option Nat) × Nat
  | [] => ([], n)
  | none :: t => (none :: (copyTab n t).1, (copyTab n t).2)
  | some _ :: t => (some n :: (copyTab (n + 1) t).1, (copyTab (n + 1) t).2)

/-- The part of `fork_syscall` about these tables, 112-199. -/
def fork (s : State) (c child : Nat) : State × Ret :=
  let m := copyTab s.next (s.tab c .mutex)
  let v := copyTab m.2 (s.tab c .cond)
  ({ (s.setTab child .mutex m.1).setTab child .cond v.1 with
      locked := fun o => if s.next ≤ o then false else s.locked o, next := v.2 }, .ok 0)

/-- The part of `exec_syscall` (442, 517-518, 529) about these tables: the calling cage is gone,
the new one (which may have the same number) starts empty. -/
def exec (s : State) (c new : Nat) : State × Ret :=
  ((((s.setTab c .mutex []).setTab c .cond []).setTab new .mutex []).setTab new .cond [], .ok 0)

/-- The part of `exit_syscall` (576) about these tables: the cage is dropped. -/
def exit (s : State) (c : Nat) (status : Int) : State × Ret :=
  ((s.setTab c .mutex []).setTab c .cond [], .ok status)

/-- The calls. -/
inductive Op
  | create (c : Nat) (k : Kind) (fail : Option Errno)
  | destroy (c : Nat) (k : Kind) (h : Int)
  | lock (c : Nat) (h : Int)
  | trylock (c : Nat) (h : Int)
  | unlock (c : Nat) (h : Int)
  | signal (c : Nat) (h : Int)
  | wait (c : Nat) (cv m : Int)
  | wake (o : Nat) (expired : Bool)
  | fork (c child : Nat)
  | exec (c new : Nat)
  | exit (c : Nat) (status : Int)
  deriving DecidableEq, Repr

/-- One call. -/
def step (s : State) : Op → State × Ret
  | .create c k fail => create s c k fail
  | .destroy c k h => destroy s c k h
  | .lock c h => lock s c h
  | .trylock c h => trylock s c h
  | .unlock c h => unlock s c h
  | .signal c h => signal s c h
  | .wait c cv m => wait s c cv m
  | .wake o expired => wake s o expired
  | .fork c child => fork s c child
  | .exec c new => exec s c new
  | .exit c status => exit s c status

/-- A history of calls. -/
def run (s : State) : List Op → State
  | [] => s
  | op :: ops => run (step s op).1 ops

end Verif.Handles
