import Verif.DataConcProps
import Verif.RecoveryWitness

/-!
# Concurrent calls on open files: concrete schedules

Schedules that meet the hypotheses of the theorems, with calls that really overlap; and what the log can look like after them.
-/

namespace Verif.DataConc
open Verif.Path Verif.Fs Verif.Kernel

/-- `n` moves of thread `t`. -/
def moves (t n : Nat) : List Act := List.replicate n (.go t)

/-- Two threads write through descriptor 3 of `demo`; the second asks for it while the first is between writing the bytes and
recording the size. -/
def twoWriters : List Act :=
  [.start 0 ⟨0, 3, .write [4, 5]⟩] ++ moves 0 6 ++ [.start 1 ⟨0, 3, .write [6]⟩] ++ moves 1 2 ++ moves 0 6 ++ moves 1 12

example : (run (rest demo) ([.start 0 ⟨0, 3, .write [4, 5]⟩] ++ moves 0 6)).pc 0 = .node 9 3 2#32 (.placed 3 [4, 5]) ∧
    bytes (run (rest demo) ([.start 0 ⟨0, 3, .write [4, 5]⟩] ++ moves 0 6)).s 9 = [1, 2, 3, 4, 5] := by decide +kernel

/-- What is seen of it. -/
example : trace (rest demo) twoWriters = [.call 0 ⟨0, 3, .write [4, 5]⟩, .call 1 ⟨0, 3, .write [6]⟩, .ret 0 (.r (.ok 2)), .ret 1 (.r (.ok 1))] := by
  decide +kernel

theorem twoWriters_rest : AtRest (run (rest demo) twoWriters) := atRest_of (by decide +kernel)

theorem twoWriters_start {t : Nat} {j : Job} (h : Act.start t j ∈ twoWriters) : ∃ data, j = ⟨0, 3, .write data⟩ := by
  simp only [twoWriters, moves, List.mem_append, List.mem_cons, List.mem_replicate, List.not_mem_nil, Act.start.injEq, reduceCtorEq,
    and_false, or_false] at h
  rcases h with ⟨-, rfl⟩ | ⟨-, rfl⟩ <;> exact ⟨_, rfl⟩

/-- The hypotheses of `shared_descriptor` are met. -/
example : ∃ pieces : List (Nat × List UInt8),
    bytes (run (rest demo) twoWriters).s 9 = [1, 2, 3] ++ (pieces.map Prod.snd).flatten := by
  obtain ⟨pieces, h, -⟩ := shared_descriptor demo_reach demo_open.1 demo_open.2.1 (by decide) twoWriters (fun _ _ h => twoWriters_start h)
    twoWriters_rest
  rw [demo_open.2.2] at h
  exact ⟨pieces, h⟩

example : bytes (run (rest demo) twoWriters).s 9 = [1, 2, 3, 4, 5, 6] := by decide +kernel

/-- The hypotheses of `never_stuck` and `all_return` are met: in the middle of the schedule both are calling, thread 1 waits. -/
example : OnFiles demo (twoWriters.take 9) ∧ ¬ AtRest (run (rest demo) (twoWriters.take 9)) ∧
    (go (run (rest demo) (twoWriters.take 9)) 1).isNone ∧ (go (run (rest demo) (twoWriters.take 9)) 0).isSome := by
  refine ⟨fun t j h => ?_, fun h => ?_, by decide +kernel, by decide +kernel⟩
  · obtain ⟨data, rfl⟩ := twoWriters_start (List.mem_of_mem_take h)
    have : slot demo 0 3 = some (.file 9 3 2#32) := by decide +kernel
    rw [this]
    trivial
  · have : ((run (rest demo) (twoWriters.take 9)).job 0).isSome := by decide +kernel
    rw [h 0] at this
    cases this

/-! ## One file, two descriptors -/

/-- `/a` is open twice in cage 0, as 3 and 4, for reading and writing; it has three bytes. -/
def twice : State := Kernel.run init [(0, .openP pA 0o102#32 0o666#32), (0, .write 3 [1, 2, 3]), (0, .openP pA 2#32 0#32)]

theorem twice_reach : Reach twice := Reach.init.run _ (by decide +kernel)

theorem twice_file : IsFile twice 9 3 ∧ bytes twice 9 = [1, 2, 3] := by
  refine ⟨?_, by decide +kernel⟩
  cases h : twice.fs.inodes 9 with
  | none =>
    have : (twice.fs.inodes 9).isSome = true := by decide +kernel
    rw [h] at this; cases this
  | some nd =>
    have h1 : (twice.fs.inodes 9).map (fun nd => nd.kind) = some .file := by decide +kernel
    have h2 : (twice.fs.inodes 9).map (fun nd => nd.size) = some 3 := by decide +kernel
    rw [h] at h1 h2
    simp only [Option.map_some, Option.some.injEq] at h1 h2
    exact ⟨nd, h, h1, h2⟩

theorem twice_open : OpenOn twice 0 3 9 3 2#32 ∧ OpenOn twice 0 4 9 0 2#32 := by
  cases h : twice.cages 0 with
  | none =>
    have : (twice.cages 0).isSome = true := by decide +kernel
    rw [h] at this; cases this
  | some cg =>
    have h1 : slot twice 0 3 = some (.file 9 3 2#32) := by decide +kernel
    have h2 : slot twice 0 4 = some (.file 9 0 2#32) := by decide +kernel
    simp only [slot, h] at h1 h2
    exact ⟨⟨by decide, cg, h, h1⟩, ⟨by decide, cg, h, h2⟩⟩

/-- A reader asks for the file while a writer is in the middle of its call. -/
def readWrite : List Act :=
  [.start 0 ⟨0, 3, .pwrite [7, 8, 9] 0⟩] ++ moves 0 4 ++ [.start 1 ⟨0, 4, .pread 3 0⟩] ++ moves 1 3 ++ moves 0 9 ++ moves 1 9

/-- The hypotheses of `no_torn_reads` are met, and the reader gets the block of the writer it has waited for. -/
example (o : Out) (ho : Ev.ret 1 o ∈ trace (rest twice) readWrite) :
    o.ret = .ok 3 ∧ (o.data = [1, 2, 3] ∨ ∃ t fd, Act.start t ⟨0, fd, .pwrite o.data 0⟩ ∈ readWrite) := by
  have key : ∀ t j, Act.start t j ∈ readWrite → (t = 0 ∧ j = ⟨0, 3, .pwrite [7, 8, 9] 0⟩) ∨ (t = 1 ∧ j = ⟨0, 4, .pread 3 0⟩) := by
    intro t j h
    simpa [readWrite, moves] using h
  have := no_torn_reads twice_reach (c := 0) twice_file.1 (by decide) readWrite (fun t j h => by
    rcases key t j h with ⟨-, rfl⟩ | ⟨-, rfl⟩
    · exact ⟨3, ⟨3, _, twice_open.1, by decide⟩, .inr ⟨_, rfl, rfl⟩⟩
    · exact ⟨4, ⟨0, _, twice_open.2, by decide⟩, .inl rfl⟩) (r := 1) (fun j h => by
    rcases key 1 j h with ⟨h, -⟩ | ⟨-, rfl⟩
    · cases h
    · exact ⟨4, rfl⟩) ho
  rw [twice_file.2] at this
  exact this

example : trace (rest twice) readWrite = [.call 0 ⟨0, 3, .pwrite [7, 8, 9] 0⟩, .call 1 ⟨0, 4, .pread 3 0⟩, .ret 0 (.r (.ok 3)),
    .ret 1 { ret := .ok 3, data := [7, 8, 9] }] := by decide +kernel

/-! ## The log -/

/-- Both descriptors stand at the beginning of an empty file. -/
def empty2 : State := Kernel.run init [(0, .openP pA 0o102#32 0o666#32), (0, .openP pA 2#32 0#32)]

/-- Thread 0 writes one byte, thread 1 three; thread 0 takes the record of the inode for the log, and appends it after thread 1 has
done its whole call. -/
def staleLog : List Act :=
  [.start 0 ⟨0, 3, .write [1]⟩] ++ moves 0 9 ++ [.start 1 ⟨0, 4, .write [1, 2, 3]⟩] ++ moves 1 12 ++ moves 0 3

/-- C67 says nothing of the log, and cannot: the record of an inode is taken and appended in two steps that nothing keeps together.
Two threads write to one file through two descriptors; both writes return, three bytes are there and `stat` says so.  But the last
record in the log is the one of the shorter write: after a crash the file has one byte, and the two others of a write that
returned are lost.  Made one after the other in either order, the same calls leave a log that gives back the three. -/
theorem stale_size_log_violated : Reach empty2 ∧ AtRest (run (rest empty2) staleLog) ∧
    trace (rest empty2) staleLog = [.call 0 ⟨0, 3, .write [1]⟩, .call 1 ⟨0, 4, .write [1, 2, 3]⟩, .ret 1 (.r (.ok 3)), .ret 0 (.r (.ok 1))] ∧
    Recovery.sizeOf? (run (rest empty2) staleLog).s pA = some 3 ∧
    (∃ s', Recovery.reboot (Recovery.diskOf (Recovery.snapOf format) (run (rest empty2) staleLog).s.fs) = some s' ∧
      Recovery.sizeOf? s' pA = some 1) ∧
    (∃ s', Recovery.reboot (Recovery.diskOf (Recovery.snapOf format)
        (Kernel.run empty2 [(0, .write 3 [1]), (0, .write 4 [1, 2, 3])]).fs) = some s' ∧ Recovery.sizeOf? s' pA = some 3) ∧
    ∃ s', Recovery.reboot (Recovery.diskOf (Recovery.snapOf format)
        (Kernel.run empty2 [(0, .write 4 [1, 2, 3]), (0, .write 3 [1])]).fs) = some s' ∧ Recovery.sizeOf? s' pA = some 3 := by
  refine ⟨Reach.init.run _ (by decide +kernel), atRest_of (by decide +kernel), by decide +kernel, by decide +kernel,
    ⟨_, Recovery.reboot_crash _ _, by decide +kernel⟩, ⟨_, Recovery.reboot_crash _ _, by decide +kernel⟩,
    ⟨_, Recovery.reboot_crash _ _, by decide +kernel⟩⟩

end Verif.DataConc
