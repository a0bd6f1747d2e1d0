import Verif.Kernel

/-!
# Model of the numbers that identify a process and of the cancellation of threads

`/repo/src/safeposix/syscalls/sys_calls.rs` 606-735 with the fields that `fork_syscall` (346-390) and `exec_syscall` (505-525) give to a new
cage; `/repo/src/safeposix/dispatcher.rs` 954-986; `/repo/src/interface/misc.rs` 228-249.
-/

namespace Verif.Ident
open Verif.Path Verif.Fs Verif.Kernel

/-- The fields `getuid`, `geteuid`, `getgid`, `getegid` of `Cage`, `/repo/src/safeposix/cage.rs` 110-113: -1 until the call was made once. -/
structure Ids where
  uid : Int
  euid : Int
  gid : Int
  egid : Int
  deriving DecidableEq, Repr

/-- As `exec_syscall` and `lindrustinit` set them, `/repo/src/safeposix/syscalls/sys_calls.rs` 511-514, `/repo/src/safeposix/dispatcher.rs` 1050-1053. -/
def Ids.fresh : Ids := ⟨-1, -1, -1, -1⟩

/-- `DEFAULT_UID`, `DEFAULT_GID`, `/repo/src/safeposix/syscalls/sys_constants.rs` 12-13. -/
def defaultId : Int := 1000

/-- The processes with these fields, by cage number. -/
structure Sys where
  k : State
  ids : Nat → Ids

/-- Calls: those of `Kernel`, and those about identity. -/
inductive Call
  | sys (op : Op)
  | getpid
  | getppid
  | getuid
  | geteuid
  | getgid
  | getegid
  deriving DecidableEq, Repr

/-- The fields of the new cage: `fork_syscall` copies them, `exec_syscall` starts anew. -/
def newIds (ids : Nat → Ids) (c : Nat) (ok : Bool) : Op → Nat → Ids
  | .fork ch => if ok then upd ids ch (ids c) else ids
  | .exec ch => if ok then upd ids ch Ids.fresh else ids
  | _ => ids

/-- One of the four calls, `/repo/src/safeposix/syscalls/sys_calls.rs` 645-735: the answer and the new field. -/
def ask (v : Int) : Ret × Int := if v = -1 then (.err .EPERM, defaultId) else (.ok defaultId, v)

/-- One call of cage `c`.  (-1 is the value of `EPERM`, and is represented so.) -/
def call (S : Sys) (c : Nat) (x : Call) : Sys × Ret :=
  match S.k.cages c with
  | none => (S, .panic)
  | some cg =>
    match x with
    | .sys op =>
      (⟨(step S.k c op).1, newIds S.ids c (decide ((step S.k c op).2.ret = .ok 0)) op⟩, (step S.k c op).2.ret)
    | .getpid => (S, .ok (toI32 c))
    | .getppid => (S, .ok (toI32 cg.parent))
    | .getuid => ({ S with ids := upd S.ids c { S.ids c with uid := (ask (S.ids c).uid).2 } }, (ask (S.ids c).uid).1)
    | .geteuid => ({ S with ids := upd S.ids c { S.ids c with euid := (ask (S.ids c).euid).2 } }, (ask (S.ids c).euid).1)
    | .getgid => ({ S with ids := upd S.ids c { S.ids c with gid := (ask (S.ids c).gid).2 } }, (ask (S.ids c).gid).1)
    | .getegid => ({ S with ids := upd S.ids c { S.ids c with egid := (ask (S.ids c).egid).2 } }, (ask (S.ids c).egid).1)

/-- A history of calls. -/
def run (S : Sys) : List (Nat × Call) → Sys
  | [] => S
  | (c, x) :: h => run (call S c x).1 h

/-- After start. -/
def boot : Sys := ⟨init, fun _ => Ids.fresh⟩

/-! ## Cancellation of threads -/

/-- `thread_table` of each cage that exists, `/repo/src/safeposix/cage.rs` 118. -/
abbrev Threads := Nat → Option (Nat → Option Bool)

/-- What happens to threads: the runtime registers, checks and removes them, and they pass cancellation points; cages come and go. -/
inductive Ev
  /-- `lindsetthreadkill(cage, thread, kill)` -/
  | mark (c t : Nat) (kill : Bool)
  /-- `lindcheckthread(cage, thread)` -/
  | check (c t : Nat)
  /-- `lindthreadremove(cage, thread)` -/
  | remove (c t : Nat)
  /-- `cancelpoint(cage)`, called by the thread -/
  | point (c t : Nat)
  /-- a cage is inserted, with an empty table (fork, exec) -/
  | insert (c : Nat)
  /-- a cage is removed -/
  | gone (c : Nat)
  deriving DecidableEq, Repr

/-- What an event gives: a panic, a truth value, the end of the calling thread, or nothing. -/
inductive Res
  | panic
  | val (b : Bool)
  | ended
  | unit
  deriving DecidableEq, Repr

/-- One event: `lindsetthreadkill`, `lindcheckthread`, `lindthreadremove` (`/repo/src/safeposix/dispatcher.rs` 961-986) and
`check_thread`, `cancelpoint` (`/repo/src/interface/misc.rs` 228-249; outside the test suite).  `main_threadid` is in `Signal`. -/
def event (T : Threads) : Ev → Threads × Res
  | .mark c t b =>
    match T c with
    | none => (T, .panic)
    | some m => (upd T c (some (upd m t (some b))), .unit)
  | .check c t =>
    match T c with
    | none => (T, .panic)
    | some m => match m t with
      | none => (T, .panic)
      | some b => (T, .val b)
  | .remove c t =>
    match T c with
    | none => (T, .panic)
    | some m => (upd T c (some (upd m t none)), .unit)
  | .point c t =>
    match T c with
    | none => (T, .panic)
    | some m => match m t with
      | none => (T, .panic)
      | some true => (upd T c (some (upd m t (some false))), .ended)
      | some false => (T, .unit)
  | .insert c => (upd T c (some (fun _ => none)), .unit)
  | .gone c => (upd T c none, .unit)

/-- A history of events. -/
def play (T : Threads) : List Ev → Threads
  | [] => T
  | e :: h => play (event T e).1 h

end Verif.Ident
