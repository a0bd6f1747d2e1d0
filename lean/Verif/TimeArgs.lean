import Verif.Base
import Verif.Dispatch

/-!
# Times given by callers

How the dispatcher turns the time arguments of `select`, `poll`, `epoll_wait`,
`cond_timedwait` and `sem_timedwait` into durations
(src/interface/types.rs 707-718, 738-778; used in src/safeposix/dispatcher.rs 625, 633, 745, 860
and 935), what `cond_timedwait` hands to the C library (src/interface/misc.rs 588-600) and the
waiting loop of `sem_timedwait` (src/interface/misc.rs 683-702).

The structures of the caller are pairs of 64-bit words (`TimeVal`, `TimeSpec`, types.rs 97-112);
reading the caller's memory is outside the model.  Rust checks multiplications for overflow in
debug builds (panic) and not in release builds (wrap around): `checks` says which build it is.
-/

namespace Verif.TimeArgs

/-- `std::time::Duration`: whole seconds (below 2^64) and nanoseconds (below 10^9). -/
structure Dur where
  secs : Nat
  nanos : Nat
  deriving DecidableEq, Repr

/-- `struct timeval` / `struct timespec`: the two words, both signed 64-bit numbers. -/
structure Pair where
  sec : BitVec 64
  frac : BitVec 64
  deriving DecidableEq, Repr

/-- Outcome of decoding: a value, an error for the caller, or a panic. -/
inductive Res (α : Type)
  | ok (a : α)
  | err (e : Errno)
  | panic
  deriving DecidableEq, Repr

/-- `Duration::new`: carries whole seconds out of the nanoseconds; panics when the seconds
overflow (Rust standard library). -/
def newDur (secs nanos : Nat) : Res Dur :=
  if nanos < 1000000000 then .ok ⟨secs, nanos⟩
  else if secs + nanos / 1000000000 < 2 ^ 64 then
    .ok ⟨secs + nanos / 1000000000, nanos % 1000000000⟩
  else .panic

/-- Multiplication of two `u32`. -/
def mulU32 (checks : Bool) (a b : Nat) : Res Nat :=
  if a * b < 2 ^ 32 then .ok (a * b) else if checks then .panic else .ok (a * b % 2 ^ 32)

/-- `x as u64` for a signed 64-bit number. -/
def asU64 (x : BitVec 64) : Nat := x.toNat

/-- `x as u32` for a signed 64-bit number: the low half. -/
def asU32 (x : BitVec 64) : Nat := x.toNat % 2 ^ 32

/-- `duration_fromtimeval`, src/interface/types.rs 707-718; `none` is a null pointer. -/
def fromTimeval (checks : Bool) : Option Pair → Res (Option Dur)
  | none => .ok none
  | some p =>
    match mulU32 checks (asU32 p.frac) 1000 with
    | .panic => .panic
    | .err e => .err e
    | .ok ns =>
      match newDur (asU64 p.sec) ns with
      | .ok d => .ok (some d)
      | .err e => .err e
      | .panic => .panic

/-- `duration_fromtimespec`, src/interface/types.rs 738-760. -/
def fromTimespec (checks : Bool) : Option Pair → Res Dur
  | none => .err .EFAULT
  | some p =>
    if p.frac.toInt < 0 ∨ p.frac.toInt ≥ 1000000000 then .err .EINVAL
    else
      match mulU32 checks (asU32 p.frac) 1000000000 with
      | .panic => .panic
      | .err e => .err e
      | .ok ns => newDur (asU64 p.sec) ns

/-- `get_duration_from_millis`, src/interface/types.rs 762-778; `from_millis` splits exactly. -/
def fromMillis (a : BitVec 64) : Res (Option Dur) :=
  match Dispatch.getInt a with
  | .ok (.i32 v) =>
    if 0 ≤ v.toInt then .ok (some ⟨v.toInt.toNat / 1000, v.toInt.toNat % 1000 * 1000000⟩)
    else .ok none
  | .ok _ => .panic          -- not possible: `get_int` gives an `i32`
  | .error e => .err e

/-- The `timespec` `RawCondvar::timedwait` builds, src/interface/misc.rs 589-592: seconds
`as i64`, total nanoseconds modulo 10^9. -/
def condDeadline (d : Dur) : Pair :=
  ⟨BitVec.ofNat 64 d.secs, BitVec.ofNat 64 ((d.secs * 1000000000 + d.nanos) % 1000000000)⟩

/-- One look at the semaphore in the loop of `timedlock`: time since the call began in
nanoseconds, and the value found. -/
structure Look where
  elapsed : Nat
  value : Nat
  deriving DecidableEq, Repr

/-- A duration in nanoseconds. -/
def Dur.ns (d : Dur) : Nat := d.secs * 1000000000 + d.nanos

/-- `RustSemaphore::timedlock`, src/interface/misc.rs 683-702: `some true` when the semaphore was
taken, `some false` when the time was over, `none` when the looks run out (still trying). -/
def timedlock (d : Dur) : List Look → Option Bool
  | [] => none
  | l :: ls =>
    if l.value = 0 then
      if l.elapsed > d.ns then some false else timedlock d ls
    else some true

end Verif.TimeArgs
