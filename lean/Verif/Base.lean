/-!
# Shared vocabulary: error numbers, results, update of total maps

Models `/repo/src/interface/errnos.rs` 31-173 (error numbers and `syscall_error`,
which returns `-(errno)`), restricted to the error numbers the modelled calls use.
-/

namespace Verif

/-- Error numbers; `/repo/src/interface/errnos.rs` 31-173. -/
inductive Errno
  | EPERM | ENOENT | EINTR | ENXIO | ENOEXEC | EBADF | EAGAIN | EACCES | EFAULT | EBUSY
  | EEXIST | ENOTDIR | EISDIR | EINVAL | ENFILE | EFBIG | ESPIPE | EPIPE | ERANGE
  | ENOTEMPTY | EILSEQ | ENOTSOCK | ENOPROTOOPT | EOPNOTSUPP | EADDRINUSE
  | EISCONN | ENOTCONN | ETIMEDOUT | EINPROGRESS | EPROTOTYPE | EPROTONOSUPPORT
  | EAFNOSUPPORT | EADDRNOTAVAIL | ECONNREFUSED | EDESTADDRREQ | ENOSYS | EOVERFLOW
  | ENOMEM | EDEADLK | ESRCH | EIO | ENOTTY | EROFS
  deriving DecidableEq, Repr

/-- Numeric value of an error number; `/repo/src/interface/errnos.rs` 31-173. -/
def Errno.code : Errno → Nat
  | .EPERM => 1 | .ENOENT => 2 | .ESRCH => 3 | .EINTR => 4 | .EIO => 5 | .ENXIO => 6 | .ENOEXEC => 8 | .EBADF => 9
  | .EAGAIN => 11 | .ENOMEM => 12 | .EACCES => 13 | .EFAULT => 14 | .EBUSY => 16
  | .EEXIST => 17 | .ENOTDIR => 20 | .EISDIR => 21 | .EINVAL => 22 | .ENFILE => 23
  | .EFBIG => 27 | .ESPIPE => 29 | .EPIPE => 32 | .ERANGE => 34 | .EDEADLK => 35
  | .ENOSYS => 38 | .ENOTTY => 25 | .EROFS => 30
  | .ENOTEMPTY => 39 | .EOVERFLOW => 75 | .EILSEQ => 84 | .ENOTSOCK => 88
  | .EDESTADDRREQ => 89 | .EPROTOTYPE => 91 | .ENOPROTOOPT => 92
  | .EPROTONOSUPPORT => 93 | .EOPNOTSUPP => 95 | .EAFNOSUPPORT => 97
  | .EADDRINUSE => 98 | .EADDRNOTAVAIL => 99 | .EISCONN => 106 | .ENOTCONN => 107
  | .ETIMEDOUT => 110 | .ECONNREFUSED => 111 | .EINPROGRESS => 115

/-- Outcome of a system call.  `ok v` is a non-negative return value, `err e` the
return value `-e.code`, `panic` an abort of the Rust code (`unwrap` on `None`,
`panic!`, index out of range), `blocked` a call that would spin or sleep forever
if no other thread acts. -/
inductive Ret
  | ok (v : Int)
  | err (e : Errno)
  | panic
  | blocked
  deriving DecidableEq, Repr

/-- The C-level return value; `syscall_error` in `/repo/src/interface/errnos.rs`. -/
def Ret.toInt? : Ret → Option Int
  | .ok v => some v
  | .err e => some (-(e.code : Int))
  | .panic => none
  | .blocked => none

/-- Function update: the model of inserting into / removing from a `DashMap` or
writing a slot of a fixed-size table. -/
def upd {α : Type} (f : Nat → α) (i : Nat) (v : α) : Nat → α :=
  fun j => if j = i then v else f j

@[simp] theorem upd_same {α : Type} (f : Nat → α) (i : Nat) (v : α) : upd f i v i = v := by
  simp [upd]

@[simp] theorem upd_ne {α : Type} (f : Nat → α) {i j : Nat} (v : α) (h : j ≠ i) :
    upd f i v j = f j := by
  simp [upd, h]

theorem upd_apply {α : Type} (f : Nat → α) (i : Nat) (v : α) (j : Nat) :
    upd f i v j = if j = i then v else f j := rfl

theorem upd_app2 {α : Type} (f : Nat → Nat → α) (i : Nat) (g : Nat → α) (j k : Nat) :
    upd f i g j k = if j = i then g k else f j k := by
  simp only [upd]; split <;> rfl

@[simp] theorem upd_upd {α : Type} (f : Nat → α) (i : Nat) (v w : α) :
    upd (upd f i v) i w = upd f i w := by
  funext j; simp only [upd]; split <;> rfl

theorem upd_self {α : Type} (f : Nat → α) (i : Nat) : upd f i (f i) = f := by
  funext j; simp only [upd]; split <;> simp_all

/-- Function update for keys of any type. -/
def updK {κ α : Type} [DecidableEq κ] (f : κ → α) (i : κ) (v : α) : κ → α :=
  fun j => if j = i then v else f j

theorem updK_apply {κ α : Type} [DecidableEq κ] (f : κ → α) (i : κ) (v : α) (j : κ) :
    updK f i v j = if j = i then v else f j := rfl

@[simp] theorem updK_same {κ α : Type} [DecidableEq κ] (f : κ → α) (i : κ) (v : α) : updK f i v i = v := by
  simp [updK]

@[simp] theorem updK_ne {κ α : Type} [DecidableEq κ] (f : κ → α) {i j : κ} (v : α) (h : j ≠ i) : updK f i v j = f j := by
  simp [updK, h]

end Verif
