import Verif.NameConcSolo
import Verif.NameConcAll
import Verif.NsWitness

/-!
Schedules of path calls that interfere: two calls that each work alone spoil each other or end the
program.  All start from the reachable file system `Kernel.tree`: `/d` is inode 9, `/d/f` and `/d/g` are two names of the file 10,
`/d/e` is the directory 11; two descriptors are open, on 10 and on 11.
-/

namespace Verif.NameConc
open Verif.Path Verif.Fs

/-- The starting point. -/
def s0 : State := init Kernel.tree.fs (fun i => if i = 10 ∨ i = 11 then 1 else 0)

/-- `n` steps of thread `t`. -/
def by_ (t n : Nat) : List Act := List.replicate n (.go t)

/-- A whole call of thread `t` (more steps than it needs; a thread at rest does nothing). -/
def whole (t : Nat) (c : Call) : List Act := .start t c :: by_ t 20

/-- `/d/x`, `/d/k`, `/d/k/x`, `/d/f`, `/d/g`. -/
def dx : List Name := [[100], [120]]
def dk : List Name := [[100], [107]]
def dkx : List Name := [[100], [107], [120]]
def df : List Name := [[100], [102]]
def dg : List Name := [[100], [103]]
def dh : List Name := [[100], [104]]

/-- Number of links and of descriptors that an inode records. -/
def counts (s : State) (i : Nat) : Option (Nat × Nat) := (s.fs.inodes i).map (fun nd => (nd.link, nd.ref))

/-- All threads that the schedules use are at rest. -/
def resting (s : State) : Bool := decide (s.pc 0 = .idle ∧ s.pc 1 = .idle ∧ s.pc 2 = .idle)

/-- `Sound` and the other hypotheses of `solo` hold here. -/
example : s0.dead = false ∧ s0.pc 0 = .idle ∧ Sound s0.fs (.unlink df) ∧
    (atomic s0.fs (.unlink df)).map Prod.snd = some (.ret (.ok 0)) := by
  refine ⟨rfl, rfl, ⟨Kernel.tree_reach.inv.fs.tree, ?_⟩, by decide +kernel⟩
  simp only [List.mem_cons, List.not_mem_nil, or_false, forall_eq]
  intro n hn
  simp only [df, List.mem_cons, List.not_mem_nil, or_false] at hn
  rcases hn with rfl | rfl <;> decide

/-- The hypothesis of the theorems over all schedules holds here. -/
theorem s0_bound : ∀ i nd, Kernel.tree.fs.inodes i = some nd → i < Kernel.tree.fs.next :=
  fun _ _ h => Kernel.tree_reach.inv.fs.tree.bound h

/-- `store_never_replaces` at work: two creations are between entering the name and storing the inode. -/
example : (run s0 ([.start 0 (.mkdir dx 0o755#32)] ++ by_ 0 5 ++ [.start 1 (.mkdir dk 0o755#32)] ++ by_ 1 5)).pc 0 =
      .store dx 9 (.dir 0o755#32) 12 ∧
    (run s0 ([.start 0 (.mkdir dx 0o755#32)] ++ by_ 0 5 ++ [.start 1 (.mkdir dk 0o755#32)] ++ by_ 1 5)).pc 1 =
      .store dk 9 (.dir 0o755#32) 13 := by decide +kernel

/-- `number_never_again` at work: one creation has taken a number, another is about to. -/
example : pend ((run s0 ([.start 0 (.mkdir dx 0o755#32)] ++ by_ 0 5)).pc 0) = some 12 ∧
    (run s0 ([.start 0 (.mkdir dx 0o755#32)] ++ by_ 0 5 ++ ([.start 1 (.mkdir dk 0o755#32)] ++ by_ 1 3))).pc 1 =
      .alloc dk 9 (.dir 0o755#32) ∧
    (run s0 ([.start 0 (.mkdir dx 0o755#32)] ++ by_ 0 5 ++ ([.start 1 (.mkdir dk 0o755#32)] ++ by_ 1 3))).dead = false := by
  decide +kernel

/-- `entries_frame` at work: the step that takes the entry `f` out of `/d` while another thread creates `/d/x`. -/
example :
    let s := run s0 ([.start 0 (.unlink df)] ++ by_ 0 4 ++ [.start 1 (.mkdir dx 0o755#32)] ++ by_ 1 5)
    (s.fs.inodes 9).map (fun nd => entGet nd.ents [102]) = some (some 10) ∧
    ((step s (.go 0)).fs.inodes 9).map (fun nd => entGet nd.ents [102]) = some none ∧
    s.call 0 = some (.unlink df) := by decide +kernel

/-- C65 is violated: two threads create `/d/x` with `O_CREAT|O_EXCL` at the same time and both
succeed, with different files; one of the files has no name but link count 1, and the link count of `/d` counts
an entry that is not there. -/
theorem excl_create_violated :
    let s := run s0 ([.start 0 (.open dx 0o302#32 0o644#32)] ++ by_ 0 3 ++ whole 1 (.open dx 0o302#32 0o644#32) ++ by_ 0 20)
    s.dead = false ∧ resting s ∧ s.res 0 = some (.opened 13 0) ∧ s.res 1 = some (.opened 12 0) ∧
    s.fs.walk dx = some (some 13, some 9) ∧ counts s 12 = some (1, 1) ∧
    (s0.fs.inodes 9).map (fun nd => (nd.link, nd.ents.length)) = some (6, 5) ∧
    (s.fs.inodes 9).map (fun nd => (nd.link, nd.ents.length)) = some (8, 6) := by decide +kernel

/-- C65 is violated: `stat` of a name that another thread is just creating ends the program: the
name is entered before the inode is stored. -/
theorem stat_create_violated :
    (run s0 ([.start 0 (.mkdir dx 0o755#32)] ++ by_ 0 5 ++ whole 1 (.stat dx))).dead = true ∧
    (run s0 (whole 0 (.mkdir dx 0o755#32) ++ whole 1 (.stat dx))).dead = false := by decide +kernel

/-- C65 is violated: two threads remove the same name; the second one ends the program
instead of answering ENOENT. -/
theorem double_unlink_violated :
    (run s0 ([.start 0 (.unlink df)] ++ by_ 0 3 ++ whole 1 (.unlink df) ++ by_ 0 20)).dead = true ∧
    (run s0 (whole 1 (.unlink df) ++ whole 0 (.unlink df))).res 0 = some (.ret (.err .ENOENT)) := by decide +kernel

/-- C65 is violated: a thread is about to remove `/d/f` while another one removes it and creates a new `/d/f`.
The first then takes a link from the old file and the entry from the new one: all calls answer 0, the new file has link count 1
and no name, the old one has a name and link count 0, and after the last `close` of the old file its
remaining name ends the program. -/
theorem unlink_recreate_violated :
    let s := run s0 ([.start 0 (.unlink df)] ++ by_ 0 3 ++ whole 1 (.unlink df) ++ whole 1 (.open df 0o102#32 0o644#32)
      ++ by_ 0 20)
    s.dead = false ∧ resting s ∧ s.res 0 = some (.ret (.ok 0)) ∧ counts s 12 = some (1, 1) ∧
    s.fs.walk df = some (none, some 9) ∧ s.fs.walk dg = some (some 10, some 9) ∧ counts s 10 = some (0, 1) ∧
    (run s (whole 1 (.close 10) ++ whole 1 (.stat dg))).dead = true := by decide +kernel

/-- C65 is violated: opening a file that another thread removes ends the program instead of
opening it or answering ENOENT. -/
theorem open_unlink_violated :
    let s := run s0 (whole 0 (.open dx 0o102#32 0o644#32) ++ whole 0 (.close 12))
    s.dead = false ∧ counts s 12 = some (1, 0) ∧
    (run s ([.start 0 (.open dx 0o2#32 0#32)] ++ by_ 0 3 ++ whole 1 (.unlink dx) ++ by_ 0 20)).dead = true ∧
    (run s (whole 1 (.unlink dx) ++ whole 0 (.open dx 0o2#32 0#32))).res 0 = some (.ret (.err .ENOENT)) := by
  decide +kernel

/-- C65 is violated: a file that one thread creates and another opens with `O_TRUNC` at the same time: the
host file does not exist yet and the attempt to remove it ends the program. -/
theorem create_trunc_violated :
    (run s0 ([.start 0 (.open dx 0o102#32 0o644#32)] ++ by_ 0 6 ++ whole 1 (.open dx 0o1002#32 0#32))).dead = true := by
  decide +kernel

/-- C65 is violated: making a directory in a directory that another thread removes ends the program
instead of answering ENOENT. -/
theorem mkdir_rmdir_violated :
    let s := run s0 (whole 0 (.mkdir dk 0o755#32))
    s.dead = false ∧
    (run s ([.start 0 (.mkdir dkx 0o755#32)] ++ by_ 0 4 ++ whole 1 (.rmdir dk) ++ by_ 0 20)).dead = true ∧
    (run s (whole 1 (.rmdir dk) ++ whole 0 (.mkdir dkx 0o755#32))).res 0 = some (.ret (.err .ENOENT)) := by decide +kernel

/-- C65 is violated: the directory is found empty, then another thread makes a directory in it, then it is removed:
both calls answer 0 and the new directory is lost, and its inode stays in the table. -/
theorem rmdir_nonempty_violated :
    let s := run s0 (whole 0 (.mkdir dk 0o755#32))
    let s' := run s ([.start 0 (.rmdir dk)] ++ by_ 0 5 ++ whole 1 (.mkdir dkx 0o755#32) ++ by_ 0 20)
    s'.dead = false ∧ resting s' ∧ s'.res 0 = some (.ret (.ok 0)) ∧ s'.res 1 = some (.ret (.ok 0)) ∧
    s'.fs.walk dkx = some (none, none) ∧ counts s' 13 = some (3, 0) := by decide +kernel

/-- C65 is violated: linking a file whose only name another thread removes ends the program. -/
theorem link_unlink_violated :
    let s := run s0 (whole 0 (.open dx 0o102#32 0o644#32) ++ whole 0 (.close 12))
    (run s ([.start 0 (.link dx dh)] ++ by_ 0 3 ++ whole 1 (.unlink dx) ++ by_ 0 20)).dead = true ∧
    (run s (whole 1 (.unlink dx) ++ whole 0 (.link dx dh))).res 0 = some (.ret (.err .ENOENT)) := by decide +kernel

/-- C65 is violated: two threads rename the same file to different names; both answer 0 and the file has
both names, with a link count that is too small. -/
theorem double_rename_violated :
    let s := run s0 ([.start 0 (.rename df dx)] ++ by_ 0 6 ++ whole 1 (.rename df dh) ++ by_ 0 20)
    s.dead = false ∧ resting s ∧ s.res 0 = some (.ret (.ok 0)) ∧ s.res 1 = some (.ret (.ok 0)) ∧
    s.fs.walk dx = some (some 10, some 9) ∧ s.fs.walk dh = some (some 10, some 9) ∧ s.fs.walk dg = some (some 10, some 9) ∧
    counts s 10 = some (2, 1) := by decide +kernel

/-- The last record of an inode in the log. -/
def lastRec (log : List (Nat × Option Inode)) (i : Nat) : Option (Option Inode) :=
  (log.reverse.find? (fun e => e.1 = i)).map Prod.snd

/-- C65 (and C26) is violated: two threads change the mode of one file; the log entry that the first prepared is
written after that of the second, so the log ends with the mode that is no longer the mode of the file. -/
theorem stale_log_violated :
    let s := run s0 ([.start 0 (.chmod df 0o600#32)] ++ by_ 0 5 ++ whole 1 (.chmod df 0o644#32) ++ by_ 0 20)
    s.dead = false ∧ resting s ∧ s.res 0 = some (.ret (.ok 0)) ∧ s.res 1 = some (.ret (.ok 0)) ∧
    (s.fs.inodes 10).map (·.mode) = some 0o100644#32 ∧
    ((lastRec s.fs.log 10).bind id).map (·.mode) = some 0o100600#32 := by decide +kernel

/-- C65 (and C26) is violated: two threads make directories with different names in one directory.  Both answer 0
and both are there, but the log entry of `/d` that the first prepared is written after that of the second, so the last record
of `/d` in the log lacks the second directory: after a crash it is gone. -/
theorem stale_dir_log_violated :
    let s := run s0 ([.start 0 (.mkdir dx 0o755#32)] ++ by_ 0 7 ++ whole 1 (.mkdir dk 0o755#32) ++ by_ 0 20)
    s.dead = false ∧ resting s ∧ s.res 0 = some (.ret (.ok 0)) ∧ s.res 1 = some (.ret (.ok 0)) ∧
    s.fs.walk dx = some (some 12, some 9) ∧ s.fs.walk dk = some (some 13, some 9) ∧
    ((lastRec s.fs.log 9).bind id).map (fun nd => (entGet nd.ents [120], entGet nd.ents [107])) = some (some 12, none) := by
  decide +kernel

end Verif.NameConc
