import Verif.RecoveryInv

/-!
# Model of logging by several threads

`log_metadata`, `/repo/src/safeposix/filesystem.rs` 399-416, first serialises the inode as it finds it in the table, then waits
for the lock of the log and appends.  The callers have released the inode before they call it
(`/repo/src/safeposix/syscalls/fs_calls.rs` 273-293, 538-557, 700-721, 873-887, 1054-1070, 2105-2109, 2351-2355, 2726-2730, 3699-3709,
3744-3746, 3767-3772, 4182-4187, 4837-4859, 4963-4966, 5035-5038).  So a thread takes these steps, and those of other threads come between:
it changes one inode (under the lock of the table entry), it serialises one inode, it appends what it has serialised.

What the calls change is left open here: a step changes an inode to any value.  The reference count is not stored
(`Recovery.clean`), so changes of it alone are no steps.
-/

namespace Verif.LogConc
open Verif.Fs Verif.Recovery

/-- The table, the log since the start, and for each thread the numbers of the inodes it has changed and not yet serialised, and the record it has
serialised and not yet appended. -/
structure St where
  table : Nat → Option Inode
  log : Log
  todo : Nat → List Nat
  held : Nat → Option (Nat × Option Inode)

/-- After a start from this metadata. -/
def St.init (b : Nat → Option Inode) : St := { table := b, log := [], todo := fun _ => [], held := fun _ => none }

/-- The steps of thread `t`. -/
inductive Act
  /-- change inode `i` (`none`: remove it) -/
  | edit (t i : Nat) (v : Option Inode)
  /-- `log_metadata` 404-410: serialise inode `i` -/
  | take (t i : Nat)
  /-- `log_metadata` 413-415: append it -/
  | append (t : Nat)

/-- Which thread. -/
def Act.thread : Act → Nat
  | .edit t _ _ | .take t _ | .append t => t

/-- One step; `none` if the thread cannot take it: it appends what it has serialised before it does anything else. -/
def St.step (s : St) : Act → Option St
  | .edit t i v => if (s.held t).isNone then
      some { s with table := upd s.table i v, todo := upd s.todo t (i :: s.todo t) } else none
  | .take t i => if (s.held t).isNone then
      some { s with held := upd s.held t (some (i, s.table i)), todo := upd s.todo t ((s.todo t).filter (· ≠ i)) } else none
  | .append t => match s.held t with
    | none => none
    | some r => some { s with log := s.log ++ [r], held := upd s.held t none }

/-- Any number of steps of any threads. -/
def St.run (s : St) : List Act → Option St
  | [] => some s
  | a :: as => match s.step a with
    | none => none
    | some s1 => s1.run as

end Verif.LogConc
