import Verif.FollowProps
import Verif.PipelineWitness

/-! # Cases of C110 -/

namespace Verif.Follow
open Verif.Fs Verif.Kernel Verif.Path Verif.Pipeline

/-- `/l` -/
def pL : Str := [47, 108]

/-- Process 0 makes the log with one line and opens it again to append; process 1 opens it to read. -/
def ready : State := run init
  [(0, .openP pL 0o101#32 0o644#32), (0, .write 3 [65, 10]), (0, .close 3), (0, .openP pL 0o2001#32 0#32), (1, .openP pL 0#32 0#32)]

theorem ready_reach : Reach ready := Reach.init.run _ (by decide +kernel)

def plan : Plan := { cw := 0, fw := 3, cr := 1, fr := 3, i := 9 }

def start : Conf := { s := ready, sent := [], got := [] }

/-- The hypotheses of the theorems hold of it. -/
theorem ready_start : Start plan 0 start := by
  have h1 : slot ready 0 3 = some (.file 9 2 1#32) := by decide +kernel
  have h2 : slot ready 1 3 = some (.file 9 0 0#32) := by decide +kernel
  have h3 : bytes ready 9 = [65, 10] := by decide +kernel
  refine ⟨ready_reach, rfl, rfl, by decide, ⟨2, file_of (by decide +kernel)⟩, ⟨1#32, Pipeline.openOn_of_slot (by decide) ?_, by decide⟩,
    ⟨0#32, Pipeline.openOn_of_slot (by decide) h2, by decide⟩, Nat.zero_le _⟩
  show slot ready 0 3 = some (.file 9 (bytes ready 9).length 1#32)
  rw [h3]; exact h1

/-- Two records; the follower reads before, between and after; another process makes a directory meanwhile. -/
def day : List Move := [.get 8, .get 8, .put [66, 10], .other 1 (.mkdir [47, 100] 0o777#32), .get 1, .put [67, 68, 10], .get 8, .get 8]

theorem day_runs : Runs plan start day (day.foldl (next plan) start) := by
  refine .cons ?_ (.cons ?_ (.cons ?_ (.cons ?_ (.cons ?_ (.cons ?_ (.cons ?_ (.cons ?_ (.nil _))))))))
  any_goals (simp only [Fair]; decide)
  refine ⟨tame_mkdir _ _ _ _, by decide +kernel, nofun, fun e => (by cases e), fun _ => by decide +kernel⟩

example : (day.foldl (next plan) start).got = [65, 10, 66, 10, 67, 68, 10] ∧
    bytes (day.foldl (next plan) start).s 9 = [65, 10, 66, 10, 67, 68, 10] := by
  constructor <;> decide +kernel

/-- Of it the theorem says that the file is the first line and the two records, and that the follower has a prefix of it. -/
example : bytes (day.foldl (next plan) start).s 9 = bytes ready 9 ++ [66, 10, 67, 68, 10] ∧
    (day.foldl (next plan) start).got <+: bytes (day.foldl (next plan) start).s 9 := by
  obtain ⟨a, b⟩ := follow_exact_partial ready_start day_runs
  exact ⟨a, b⟩

/-- C110, violated: with two writers who both asked for O_APPEND no record is lost.  Process 1 opens the log to append as well; the record of process 0, written
after that, is overwritten by that of process 1 though both calls report success. -/
theorem two_writers_violated : let s := run ready [(1, .openP pL 0o2001#32 0#32), (0, .write 3 [66, 10]), (1, .write 4 [67, 10])]
    Reach s ∧ (step (run ready [(1, .openP pL 0o2001#32 0#32), (0, .write 3 [66, 10])]) 1 (.write 4 [67, 10])).2.ret = .ok 2 ∧
      bytes s 9 = [65, 10, 67, 10] := by
  intro s
  refine ⟨ready_reach.run _ (by decide +kernel), by decide +kernel, by decide +kernel⟩

/-- C110, violated: a follower survives the log being emptied.  It has read two bytes; when the log is truncated, its next read aborts. -/
theorem emptied_log_violated : let s := run ready [(1, .read 3 8), (0, .ftruncate 3 0)]
    Reach s ∧ (step s 1 (.read 3 8)).2.ret = .panic := by
  intro s
  refine ⟨ready_reach.run _ (by decide +kernel), by decide +kernel⟩

/-- C110, violated: a writer who asked for O_APPEND writes at the end of a log that was emptied.  It writes where the end was; the log begins with a zero byte
for every byte that was in it. -/
theorem emptied_append_violated : let s := run ready [(0, .truncate pL 0), (0, .write 3 [66, 10])]
    Reach s ∧ bytes s 9 = [0, 0, 66, 10] := by
  intro s
  refine ⟨ready_reach.run _ (by decide +kernel), by decide +kernel⟩

end Verif.Follow
