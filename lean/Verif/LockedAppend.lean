import Verif.LockFileProps
import Verif.FollowProps

/-!
# Several processes append to one file under a lock file: C111

The way to share a log on a system whose O_APPEND does not keep writers apart (C110): each process takes the lock (C105), moves its own
descriptor to the end, writes its records and gives the lock back.  On the kernel model, each call one step; the calls of all processes, and any other
calls, come in any order.
-/

namespace Verif.LockedAppend
open Verif.Fs Verif.Kernel Verif.Path

/-! ## Specification -/

/-- The writers, the descriptor each of them has for the file, the file, and the name of the lock. -/
structure Plan where
  writers : List Nat
  fd : Nat → Nat
  i : Nat
  lock : List Name

/-- The system with those who have the lock, those of them who have moved to the end since, and the records written so far with their writers. -/
structure Conf where
  x : LockFile.Conf
  atEnd : Nat → Bool
  sent : List (Nat × List UInt8)

inductive Move
  /-- a process tries to take the lock -/
  | take (c : Nat) (p : Str) (flags mode : BitVec 32)
  /-- a writer that has the lock moves to the end -/
  | seek (c : Nat)
  /-- a writer that has moved to the end writes a record -/
  | put (c : Nat) (d : List UInt8)
  /-- a process gives the lock back -/
  | give (c : Nat) (p : Str)
  /-- another call -/
  | other (c : Nat) (op : Op)

/-- One move.  A writer seeks only while it has the lock, and writes only after that. -/
def next (P : Plan) (y : Conf) : Move → Conf
  | .take c p flags mode => { y with x := LockFile.next y.x (.take c p flags mode) }
  | .seek c =>
    if c ∈ y.x.holders then
      { y with x := LockFile.next y.x (.other c (.lseek (P.fd c) 0 2)), atEnd := fun k => if k = c then true else y.atEnd k }
    else y
  | .put c d =>
    if c ∈ y.x.holders ∧ y.atEnd c = true then
      { y with x := LockFile.next y.x (.other c (.write (P.fd c) d)), sent := y.sent ++ [(c, d)] }
    else y
  | .give c p => { y with x := LockFile.next y.x (.give c p), atEnd := fun k => if k = c then false else y.atEnd k }
  | .other c op => { y with x := LockFile.next y.x (.other c op) }

/-- The lock is used as C105 asks; only writers seek and write; other calls do not change the file, and those of a writer leave its descriptor alone. -/
def Fair (P : Plan) (y : Conf) : Move → Prop
  | .take c p flags mode => LockFile.Fair P.lock y.x (.take c p flags mode)
  | .seek c => c ∈ P.writers
  | .put c d => c ∈ P.writers ∧ d.length < 2147483648
  | .give c p => LockFile.Fair P.lock y.x (.give c p)
  | .other c op => LockFile.Fair P.lock y.x (.other c op) ∧ (∀ e, ¬ Edits y.x.s c P.i op e) ∧
      (c ∈ P.writers → slot (step y.x.s c op).1 c (P.fd c) = slot y.x.s c (P.fd c))

inductive Runs (P : Plan) : Conf → List Move → Conf → Prop
  | nil (y : Conf) : Runs P y [] y
  | cons {y z : Conf} {m : Move} {ms : List Move} (h : Fair P y m) (hr : Runs P (next P y m) ms z) : Runs P y (m :: ms) z

/-- The start: the lock is free, and every writer has its own descriptor open on the file for writing, wherever it stands. -/
structure Start (P : Plan) (y : Conf) : Prop where
  lock : LockFile.Start P.lock y.x
  sent : y.sent = []
  atEnd : ∀ c, y.atEnd c = false
  any : P.writers ≠ []
  file : ∃ n, IsFile y.x.s P.i n
  wr : ∀ c ∈ P.writers, ∃ pos f, OpenOn y.x.s c (P.fd c) P.i pos f ∧ f &&& 3#32 ≠ 0#32

/-- A move that gives back the lock of `c`. -/
def GivesBack (c : Nat) : Move → Prop
  | .give k _ => k = c
  | _ => False

end Verif.LockedAppend
