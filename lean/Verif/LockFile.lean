import Verif.NamesKeptProps
import Verif.NsAnswers
import Verif.RecoveryWitness

/-!
# Lock files (C105)

What programs do that must not run at the same time: each creates a file of an agreed name with `O_CREAT|O_EXCL`, goes on if that succeeded, and
removes the name when it is done.  The program is modelled on the kernel model; its calls, those of any number of other processes that use the same
name in the same way, and any other calls come in any order.
-/

namespace Verif.LockFile
open Verif.Fs Verif.Kernel Verif.Path

/-- The state, and the processes that took the lock and have not given it back (a process that took it twice would be there twice).  Not part of
/repo; the calls are `/repo/src/safeposix/syscalls/fs_calls.rs` 184-432 (`open_syscall`) and 970-1075 (`unlink_syscall`). -/
structure Conf where
  s : State
  holders : List Nat

/-- What can happen next: calls of `/repo/src/safeposix/syscalls/fs_calls.rs` 184-432 and 970-1075, and any others. -/
inductive Move
  /-- a process tries to take the lock -/
  | take (c : Nat) (p : Str) (flags mode : BitVec 32)
  /-- a process that has the lock gives it back -/
  | give (c : Nat) (p : Str)
  /-- any other call of any process -/
  | other (c : Nat) (op : Op)

/-- One move: `open_syscall`, `/repo/src/safeposix/syscalls/fs_calls.rs` 184-432, and `unlink_syscall`, 970-1075, through the kernel model.  A process
has the lock when `open` gave it a descriptor, and has it no more when `unlink` answered 0. -/
def next (x : Conf) : Move → Conf
  | .take c p flags mode =>
    let r := step x.s c (.openP p flags mode)
    { s := r.1, holders := match r.2.ret with | .ok _ => c :: x.holders | _ => x.holders }
  | .give c p =>
    if c ∈ x.holders then
      let r := step x.s c (.unlink p)
      { s := r.1, holders := if r.2.ret = .ok 0 then x.holders.erase c else x.holders }
    else x
  | .other c op => { x with s := (step x.s c op).1 }

/-! ## Specification -/

/-- The path from the root leads somewhere. -/
def There (s : State) (N : List Name) : Prop := ∃ k, Walk s.fs.inodes rootIno N k

/-- The moves: whoever takes or gives back the lock uses a path that names `N`, relative to whatever directory; it is taken with `O_CREAT|O_EXCL`;
the directory of the lock may be changed when it is given back; and no other call is asked to make, remove or rename `N` or a directory above it. -/
def Fair (N : List Name) (x : Conf) : Move → Prop
  | .take c p flags _ => (∃ cg, x.s.cages c = some cg ∧ cg.path p = N) ∧ flags &&& 0o300#32 = 0o300#32
  | .give c p => (∃ cg, x.s.cages c = some cg ∧ cg.path p = N) ∧
      ∀ ps n d nd, N = ps ++ [n] → Walk x.s.fs.inodes rootIno ps d → x.s.fs.inodes d = some nd → nd.mode &&& 0o222#32 ≠ 0#32
  | .other c op => Tame x.s c op ∧ (step x.s c op).2.ret ≠ .panic ∧ ∀ q ∈ takes x.s c op ++ makes x.s c op, ¬ q <+: N

inductive Runs (N : List Name) : Conf → List Move → Conf → Prop
  | nil (x : Conf) : Runs N x [] x
  | cons {x y : Conf} {m : Move} {ms : List Move} (h : Fair N x m) (hr : Runs N (next x m) ms y) : Runs N x (m :: ms) y

/-- The start: nobody has the lock, and there is no such file. -/
structure Start (N : List Name) (x : Conf) : Prop where
  reach : Reach x.s
  nobody : x.holders = []
  good : ∀ n ∈ N, Good n
  missing : ¬ There x.s N

end Verif.LockFile
