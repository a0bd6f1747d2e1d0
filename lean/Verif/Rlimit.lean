import Verif.FdProps

/-! # Resource limits: `getrlimit` and `setrlimit` (model for property C106) -/

namespace Verif.Rlimit
open Verif.Kernel

/-- `Rlimit`, `/repo/src/interface/types.rs` 54-57: the buffer of the caller. -/
structure Rlim where
  cur : BitVec 64
  max : BitVec 64
  deriving DecidableEq

/-- The constants of `/repo/src/safeposix/syscalls/sys_constants.rs` 19-26. -/
def nofileCur : BitVec 64 := 1024#64
/-- `NOFILE_MAX`, same place. -/
def nofileMax : BitVec 64 := 4#64 * 1024#64
/-- `STACK_CUR`, same place. -/
def stackCur : BitVec 64 := 8192#64 * 1024#64
/-- `STACK_MAX`, same place. -/
def stackMax : BitVec 64 := 1#64 <<< 32
/-- `RLIMIT_STACK`, same place. -/
def rlimitStack : BitVec 64 := 0#64
/-- `RLIMIT_NOFILE`, same place. -/
def rlimitNofile : BitVec 64 := 1#64

/-- `getrlimit`, `/repo/src/safeposix/syscalls/sys_calls.rs` 868-881: the return value and the content of the
caller's buffer afterwards. -/
def getrlimit (res : BitVec 64) (buf : Rlim) : Int × Rlim :=
  if res = rlimitNofile then (0, ⟨nofileCur, nofileMax⟩)
  else if res = rlimitStack then (0, ⟨stackCur, stackMax⟩)
  else (-1, buf)

/-- `setrlimit`, `/repo/src/safeposix/syscalls/sys_calls.rs` 883-896: the return value; the value given is not looked at. -/
def setrlimit (res _value : BitVec 64) : Int :=
  if res = rlimitNofile then if nofileCur.toNat > nofileMax.toNat then -1 else 0
  else -1

/-- A call of a cage: one of the calls of the kernel model, or one of the two calls on limits. -/
inductive Call where
  | op (o : Op)
  | get (res : BitVec 64) (buf : Rlim)
  | set (res value : BitVec 64)

/-- The state after a call: the calls on limits take `&self` and change nothing (`sys_calls.rs` 868, 883). -/
def next (s : State) (c : Nat) : Call → State
  | .op o => (step s c o).1
  | .get _ _ => s
  | .set _ _ => s

/-- The states a history of such calls leads to. -/
inductive Hist : State → Prop where
  | init : Hist init
  | op {s : State} (c : Nat) (o : Op) (h : Hist s) (ht : Tame s c o) (hp : (step s c o).2.ret ≠ .panic) : Hist (next s c (.op o))
  | get {s : State} (c : Nat) (res : BitVec 64) (buf : Rlim) (h : Hist s) : Hist (next s c (.get res buf))
  | set {s : State} (c : Nat) (res value : BitVec 64) (h : Hist s) : Hist (next s c (.set res value))

end Verif.Rlimit
