import Verif.LockFileProps
import Verif.MailboxProps

/-!
# Locks made with open, mkdir or link (C114)

A lock is a name that is made by whoever wants it and removed by whoever has it.  It can be made with `open` and `O_CREAT|O_EXCL`, with `mkdir`, or
with `link` of another file; this also holds when programs that use the same name make it in different ways.
-/

namespace Verif.AnyLock
open Verif.Fs Verif.Kernel Verif.Path
open Verif.LockFile (Conf There)

/-- The ways to make the name: `/repo/src/safeposix/syscalls/fs_calls.rs` 184-432 (`open_syscall`),
480-570 (`mkdir_syscall`) and 787-930 (`link_syscall`). -/
inductive Make
  | file (flags mode : BitVec 32)
  | dir (mode : BitVec 32)
  | link (old : Str)

/-- The call that makes the name `p`: one of `/repo/src/safeposix/syscalls/fs_calls.rs` 184-432, 480-570 and 787-930. -/
def Make.op (p : Str) : Make → Op
  | .file flags mode => .openP p flags mode
  | .dir mode => .mkdir p mode
  | .link old => .link old p

/-- The call that removes the name `p`: `/repo/src/safeposix/syscalls/fs_calls.rs` 4730-4866 (`rmdir_syscall`) or 970-1075 (`unlink_syscall`). -/
def gone (p : Str) (dir : Bool) : Op := if dir then .rmdir p else .unlink p

/-- What can happen next: calls of `/repo/src/safeposix/syscalls/fs_calls.rs` 184-432, 480-570, 787-930, 970-1075 and 4730-4866, and any others. -/
inductive Move
  /-- a process tries to take the lock -/
  | take (c : Nat) (p : Str) (w : Make)
  /-- a process that has the lock gives it back, with `rmdir` or with `unlink` -/
  | give (c : Nat) (p : Str) (dir : Bool)
  /-- any other call of any process -/
  | other (c : Nat) (op : Op)

/-- One move, through the kernel model; the calls as in `Move`.  Not part of /repo: the list of those who have the lock.  A process has the lock when its call did not fail, and has it no more when the name was removed. -/
def next (x : Conf) : Move → Conf
  | .take c p w =>
    let r := step x.s c (w.op p)
    { s := r.1, holders := match r.2.ret with | .ok _ => c :: x.holders | _ => x.holders }
  | .give c p dir =>
    if c ∈ x.holders then
      let r := step x.s c (gone p dir)
      { s := r.1, holders := if r.2.ret = .ok 0 then x.holders.erase c else x.holders }
    else x
  | .other c op => { x with s := (step x.s c op).1 }

/-! ## Specification -/

/-- Who opens does so with `O_CREAT|O_EXCL`. -/
def Make.Excl : Make → Prop
  | .file flags _ => flags &&& 0o300#32 = 0o300#32
  | _ => True

/-- The moves: whoever takes or gives back the lock uses a path that names `N`; removing it does not abort (C15), and for `unlink` the directory may be
changed (C25); and no other call is asked to make, remove or rename `N` or a directory above it. -/
def Fair (N : List Name) (x : Conf) : Move → Prop
  | .take c p w => (∃ cg, x.s.cages c = some cg ∧ cg.path p = N) ∧ w.Excl
  | .give c p dir => (∃ cg, x.s.cages c = some cg ∧ cg.path p = N) ∧ (step x.s c (gone p dir)).2.ret ≠ .panic ∧
      (dir = false → ∀ ps n d nd, N = ps ++ [n] → Walk x.s.fs.inodes rootIno ps d → x.s.fs.inodes d = some nd → nd.mode &&& 0o222#32 ≠ 0#32)
  | .other c op => Tame x.s c op ∧ (step x.s c op).2.ret ≠ .panic ∧ ∀ q ∈ takes x.s c op ++ makes x.s c op, ¬ q <+: N

inductive Runs (N : List Name) : Conf → List Move → Conf → Prop
  | nil (x : Conf) : Runs N x [] x
  | cons {x y : Conf} {m : Move} {ms : List Move} (h : Fair N x m) (hr : Runs N (next x m) ms y) : Runs N x (m :: ms) y

end Verif.AnyLock
