import Verif.RecordsConc
import Verif.PipelineWitness

/-! # Cases of C113 -/

namespace Verif.Records
open Verif.Fs Verif.Kernel Verif.Path Verif.DataConc

/-- `/l` -/
def pL : Str := [47, 108]

/-- Process 0 makes a file of two records of two bytes and one byte more; both processes have it open for reading and writing, the second further on. -/
def ready : State := Kernel.run init
  [(0, .openP pL 0o102#32 0o644#32), (0, .write 3 [1, 2, 3, 4, 9]), (1, .openP pL 2#32 0#32), (1, .read 3 3)]

theorem ready_reach : Reach ready := Reach.init.run _ (by decide +kernel)

def plan : Plan := { users := [0, 1], fd := fun _ => 3, i := 9, size := 2, count := 2 }

def start : Conf := { s := ready, events := [] }

/-- The hypotheses of the theorems hold of it. -/
theorem ready_start : Start plan start := by
  have h1 : Kernel.slot ready 0 3 = some (.file 9 5 2#32) := by decide +kernel
  have h2 : Kernel.slot ready 1 3 = some (.file 9 3 2#32) := by decide +kernel
  refine ⟨ready_reach, rfl, by simp [plan], by decide, ⟨5, Pipeline.file_of (by decide +kernel)⟩, by decide +kernel, ?_⟩
  intro c hc
  simp only [plan, List.mem_cons, List.not_mem_nil, or_false] at hc
  rcases hc with rfl | rfl
  · exact ⟨5, 2#32, Pipeline.openOn_of_slot (by decide) h1, by decide⟩
  · exact ⟨3, 2#32, Pipeline.openOn_of_slot (by decide) h2, by decide⟩

/-- Both read and write both records; process 1 moves its position and makes a directory meanwhile. -/
def day : List Move :=
  [.get 0 1, .put 1 1 [5, 6], .get 0 1, .other 1 (.lseek 3 0 0), .put 0 0 [7, 8], .other 1 (.mkdir [47, 100] 0o777#32), .get 1 0, .put 1 1 [0, 1],
   .get 0 1]

theorem day_runs : Runs plan start day (day.foldl (next plan) start) := by
  refine .cons ?_ (.cons ?_ (.cons ?_ (.cons ?_ (.cons ?_ (.cons ?_ (.cons ?_ (.cons ?_ (.cons ?_ (.nil _)))))))))
  any_goals (simp only [Fair]; decide)
  · refine ⟨?_, by decide +kernel, nofun, fun _ pos f h => ?_⟩
    · unfold Tame; split <;> trivial
    · have h2 : ∀ p g, Kernel.slot ((day.take 3).foldl (next plan) start).s 1 3 = some (.file 9 p g) → g = 2#32 := by
        have : Kernel.slot ((day.take 3).foldl (next plan) start).s 1 3 = some (.file 9 3 2#32) := by decide +kernel
        intro p g e; rw [this] at e; cases e; rfl
      have := h2 pos f h; subst this
      exact ⟨0, by decide +kernel⟩
  · refine ⟨?_, by decide +kernel, nofun, fun _ pos f h => ?_⟩
    · unfold Tame; split <;> trivial
    · have h3 : Kernel.slot ((day.take 5).foldl (next plan) start).s 1 3 = some (.file 9 0 2#32) := by decide +kernel
      have h' : some (Desc.file 9 0 2#32) = some (.file 9 pos f) := h3.symm.trans h
      cases h'
      exact ⟨0, by decide +kernel⟩

example : (day.foldl (next plan) start).events = [.saw 0 1 [3, 4], .wrote 1 1 [5, 6], .saw 0 1 [5, 6], .wrote 0 0 [7, 8], .saw 1 0 [7, 8],
    .wrote 1 1 [0, 1], .saw 0 1 [0, 1]] ∧ bytes (day.foldl (next plan) start).s 9 = [7, 8, 0, 1, 9] := by
  constructor <;> decide +kernel

/-- Of it the theorems say that the last byte stays and that the records are those written last. -/
example : (bytes (day.foldl (next plan) start).s 9).drop 4 = (bytes ready 9).drop 4 ∧
    record plan (day.foldl (next plan) start).s 1 = after (record plan ready) (day.foldl (next plan) start).events 1 :=
  ⟨records_outside_partial ready_start day_runs, (records_exact_partial ready_start day_runs).2.1 1 (by decide)⟩

/-- Two threads of process 0 and one of process 1 at once: the schedule is cut in the middle of the write. -/
def both : List Act :=
  [.start 0 ⟨0, 3, .pwrite [5, 6] 2⟩, .go 0, .start 1 ⟨1, 3, .pread 2 2⟩, .go 1, .go 0, .go 1, .go 0, .go 1, .start 2 ⟨0, 3, .pread 2 0⟩, .go 2] ++
    (List.replicate 12 [Act.go 0, Act.go 1, Act.go 2]).flatten

theorem both_asks : ∀ t j, Act.start t j ∈ both → ∃ r, Asks plan j r := by
  intro t j h
  simp only [both, List.mem_append, List.mem_cons, List.not_mem_nil, or_false, Act.start.injEq, reduceCtorEq, false_or, or_assoc] at h
  rcases h with ⟨rfl, rfl⟩ | ⟨rfl, rfl⟩ | ⟨rfl, rfl⟩ | h
  · exact ⟨_, .put (P := plan) (c := 0) (k := 1) (d := [5, 6]) (by simp [plan]) (by decide) (by decide)⟩
  · exact ⟨_, .get (P := plan) (c := 1) (k := 1) (by simp [plan]) (by decide)⟩
  · exact ⟨_, .get (P := plan) (c := 0) (k := 0) (by simp [plan]) (by decide)⟩
  · exfalso
    revert h; simp

/-- The theorem applies to it; all three are answered, the reader of record 1 with the new record. -/
example : (∃ vs U, Views plan (trace (rest ready) both) vs ∧ Table.Runs 2 ⟨record plan ready, fun _ => none⟩ vs U) ∧
    (trace (rest ready) both).length = 6 ∧ bytes (DataConc.run (rest ready) both).s 9 = [1, 2, 5, 6, 9] := by
  obtain ⟨vs, U, h1, h2, -⟩ := records_linearizable (P := plan) (s := ready) ready_start both both_asks
  exact ⟨⟨vs, U, h1, h2⟩, by decide +kernel, by decide +kernel⟩

end Verif.Records
