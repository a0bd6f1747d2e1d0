import Verif.Getdents

/-!
# Listing a directory while it changes

The entries of a directory are in a `DashMap`, `/repo/src/safeposix/filesystem.rs` 121, a table with places some of which are taken.  Going through
it visits the places in order.  A new name takes a free place, which place depends on its hash; taking a name out frees its place; neither
moves the others, except when the table has to grow or is cleaned up: then all are put anew.  `getdents` counts entries, not places.

The model is one descriptor of one directory, with the calls of others that change the directory in between: creating, linking, making (`add`),
removing (`sub`); a rename is one of each (`/repo/src/safeposix/syscalls/fs_calls.rs` 4935-4960).  The calls are atomic, as those that change the
directory have the inode for writing and `getdents` has it for reading.  Where a new name goes is left open.
-/

namespace Verif.DirWalk
open Verif.Path

/-- The table, the position of the descriptor and what its calls of `getdents` returned: buffer size, result, bytes. -/
structure St where
  slots : List (Option (Str × Nat))
  pos : Nat
  log : List (Nat × Ret × List UInt8)

/-- The entries in the order in which the table is gone through. -/
def St.live (s : St) : List (Str × Nat) := s.slots.filterMap id

/-- The directory has just been opened: `/repo/src/safeposix/syscalls/fs_calls.rs` 166-167, 394-409; the size of a directory is 0. -/
def opened (slots : List (Option (Str × Nat))) : St where
  slots := slots
  pos := 0
  log := []

/-- What can happen: a name is entered (at place `i` if it is new), the name at place `i` is taken out, the table is put anew, `getdents` with
a buffer of `b` bytes, `lseek`. -/
inductive Op
  | add (i : Nat) (e : Str × Nat)
  | sub (i : Nat)
  | grow (slots : List (Option (Str × Nat)))
  | read (b : Nat)
  | seek (off whence : Int)
  deriving DecidableEq, Repr

/-- `insert` of a dictionary: `/repo/src/safeposix/syscalls/fs_calls.rs` 277, 544, 708, 878, 4942; a name that is there gets a new inode number. -/
def add (s : St) (i : Nat) (e : Str × Nat) : Option St :=
  if e.1 ∈ s.live.map Prod.fst then
    some { s with slots := s.slots.map (Option.map fun x => if x.1 = e.1 then e else x) }
  else if s.slots[i]? = some none then some { s with slots := s.slots.set i (some e) }
  else none

/-- `remove` of a dictionary: `/repo/src/safeposix/syscalls/fs_calls.rs` 4683 (unlink, rmdir), 4953 (rename). -/
def sub (s : St) (i : Nat) : Option St :=
  match s.slots[i]? with
  | some (some _) => some { s with slots := s.slots.set i none }
  | _ => none

/-- `getdents_syscall` on the descriptor, `/repo/src/safeposix/syscalls/fs_calls.rs` 5448-5515. -/
def read (s : St) (b : Nat) : St :=
  let r := Getdents.getdents s.live s.pos b
  { s with pos := r.pos, log := s.log ++ [(b, r.ret, r.bytes)] }

/-- `lseek_syscall` on a directory, `/repo/src/safeposix/syscalls/fs_calls.rs` 2929-2972 (`SEEK_SET` 0, `SEEK_CUR` 1, `SEEK_END` 2); positions are taken to
fit the 32 bits of the answer. -/
def seek (s : St) (off whence : Int) : St × Ret :=
  let to : Option Int :=
    if whence = 0 then some off
    else if whence = 1 then some (s.pos + off)
    else if whence = 2 then some (s.live.length + off)
    else none
  match to with
  | none => (s, .err .EINVAL)
  | some p => if p < 0 then (s, .err .EINVAL) else if (s.live.length : Int) < p then (s, .err .EINVAL) else ({ s with pos := p.toNat }, .ok p)

/-- One step; `none` if it cannot take place: a place is not free, a table put anew has other entries. -/
def step (s : St) : Op → Option St
  | .add i e => add s i e
  | .sub i => sub s i
  | .grow sl => if (sl.filterMap id).isPerm s.live then some { s with slots := sl } else none
  | .read b => some (read s b)
  | .seek off wh => some (seek s off wh).1

/-- A run; what cannot take place is passed over. -/
def runFrom (s : St) : List Op → St
  | [] => s
  | o :: l => runFrom ((step s o).getD s) l

end Verif.DirWalk
