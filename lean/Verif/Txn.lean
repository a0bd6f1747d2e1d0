import Verif.RecordsProps
import Verif.AnyLockProps
import Verif.LockedAppendProps

/-!
# Transactions on a file of records under a lock (C115)

Processes that keep records in a file (C113) take a lock (C114), read and write records, and give it back.  On the kernel model, each call one step; the
calls of all processes, and any other calls, come in any order.
-/

namespace Verif.Txn
open Verif.Fs Verif.Kernel Verif.Path

/-! ## Specification -/

/-- The file of records and the name of the lock. -/
structure Plan where
  file : Records.Plan
  lock : List Name

/-- What is noted down: who got the lock, what they did while they had it, who gave it back. -/
inductive Mark
  | enter (c : Nat)
  | act (e : Records.Event)
  | leave (c : Nat)

/-- The system with those who have the lock, and what happened so far. -/
structure Conf where
  x : LockFile.Conf
  log : List Mark

inductive Move
  /-- a process tries to take the lock -/
  | take (c : Nat) (p : Str) (w : AnyLock.Make)
  /-- a process that has the lock writes a record -/
  | put (c k : Nat) (d : List UInt8)
  /-- a process that has the lock reads a record -/
  | get (c k : Nat)
  /-- a process gives the lock back -/
  | give (c : Nat) (p : Str) (dir : Bool)
  /-- another call -/
  | other (c : Nat) (op : Op)

/-- One move.  A process reads and writes records only while it has the lock.  The calls are `pread_syscall` and `pwrite_syscall`,
`/repo/src/safeposix/syscalls/fs_calls.rs` 1791-1893 and 2244-2383, and those of `AnyLock.next`. -/
def next (P : Plan) (y : Conf) : Move → Conf
  | .take c p w =>
    { x := AnyLock.next y.x (.take c p w), log := match (step y.x.s c (w.op p)).2.ret with | .ok _ => y.log ++ [.enter c] | _ => y.log }
  | .put c k d =>
    if c ∈ y.x.holders then
      { x := { y.x with s := (step y.x.s c (.pwrite (P.file.fd c) d (P.file.size * k : Nat))).1 }, log := y.log ++ [.act (.wrote c k d)] }
    else y
  | .get c k =>
    if c ∈ y.x.holders then
      let r := step y.x.s c (.pread (P.file.fd c) P.file.size (P.file.size * k : Nat))
      { x := { y.x with s := r.1 }, log := y.log ++ [.act (.saw c k r.2.data)] }
    else y
  | .give c p dir =>
    { x := AnyLock.next y.x (.give c p dir),
      log := if c ∈ y.x.holders ∧ (step y.x.s c (AnyLock.gone p dir)).2.ret = .ok 0 then y.log ++ [.leave c] else y.log }
  | .other c op => { y with x := AnyLock.next y.x (.other c op) }

/-- The events among what was noted down. -/
def acts (l : List Mark) : List Records.Event := l.filterMap fun | .act e => some e | _ => none

/-- The lock is used as C114 asks and the file as C113 asks. -/
def Fair (P : Plan) (y : Conf) : Move → Prop
  | .take c p w => AnyLock.Fair P.lock y.x (.take c p w)
  | .put c k d => Records.Fair P.file ⟨y.x.s, acts y.log⟩ (.put c k d)
  | .get c k => Records.Fair P.file ⟨y.x.s, acts y.log⟩ (.get c k)
  | .give c p dir => AnyLock.Fair P.lock y.x (.give c p dir)
  | .other c op => AnyLock.Fair P.lock y.x (.other c op) ∧ Records.Fair P.file ⟨y.x.s, acts y.log⟩ (.other c op)

inductive Runs (P : Plan) : Conf → List Move → Conf → Prop
  | nil (y : Conf) : Runs P y [] y
  | cons {y z : Conf} {m : Move} {ms : List Move} (h : Fair P y m) (hr : Runs P (next P y m) ms z) : Runs P y (m :: ms) z

/-- The start: the lock is free, and every process has its descriptor open on the file. -/
structure Start (P : Plan) (y : Conf) : Prop where
  lock : LockFile.Start P.lock y.x
  file : Records.Start P.file ⟨y.x.s, []⟩
  log : y.log = []

/-- A transaction: a process, and what it did from the moment it got the lock. -/
structure Tx where
  who : Nat
  did : List Records.Event

/-- Whose event it is. -/
def by_ : Records.Event → Nat
  | .wrote c _ _ => c
  | .saw c _ _ => c

/-- A transaction as it is noted down. -/
def Tx.whole (t : Tx) : List Mark := [.enter t.who] ++ t.did.map .act ++ [.leave t.who]
def Tx.begun (t : Tx) : List Mark := [.enter t.who] ++ t.did.map .act

/-- All that a process did in its transaction it did itself. -/
def Tx.Own (t : Tx) : Prop := ∀ e ∈ t.did, by_ e = t.who

end Verif.Txn
