import Verif.IdentProps

/-!
# C70, C71: cases in which the hypotheses hold, and what the code gets wrong
-/

namespace Verif.Ident
open Verif.Path Verif.Fs Verif.Kernel

/-- The calls of `Kernel` in a history. -/
def ops : List (Nat × Call) → List (Nat × Op)
  | [] => []
  | (c, .sys op) :: H => (c, op) :: ops H
  | _ :: H => ops H

theorem run_k : ∀ (H : List (Nat × Call)) (S : Sys), (run S H).k = Kernel.run S.k (ops H)
  | [], _ => rfl
  | (c, x) :: H, S => by
    rw [run, run_k H, call_k]
    cases x <;> rfl

theorem reach_of (H : List (Nat × Call)) (h : runB init (ops H) = true) : Reach (run boot H).k := by
  rw [run_k]; exact Reach.init.run _ h

/-- Process 1 asks for its user twice and forks process 5, which forks process 6. -/
def family : List (Nat × Call) := [(1, .getuid), (1, .getuid), (1, .sys (.fork 5)), (5, .sys (.fork 6))]

theorem family_reach : Reach (run boot family).k := reach_of _ (by decide +kernel)

/-- Each process of the family is told its own number and its parent's (C70); the user is known to all of them. -/
example : answer (run boot family) 1 .getpid = .ok 1 ∧ answer (run boot family) 5 .getpid = .ok 5 ∧ answer (run boot family) 6 .getpid = .ok 6 ∧
    answer (run boot family) 5 .getppid = .ok 1 ∧ answer (run boot family) 6 .getppid = .ok 5 ∧ answer (run boot family) 1 .getppid = .ok 1 ∧
    answer (run boot family) 1 .getuid = .ok 1000 ∧ answer (run boot family) 6 .getuid = .ok 1000 ∧
    answer (run boot (family ++ [(6, .sys (.exec 6))])) 6 .getppid = .ok 5 := by decide +kernel

/-- The hypotheses of `ppid_forker` hold for process 6 and the calls that follow: its parent and it open files. -/
example : answer (run (call (run boot (family.take 3)) 5 (.sys (.fork 6))).1 [(5, .sys (.openP pA 0o102#32 0o666#32)), (6, .getuid), (1, .sys (.exit 0))]) 6
    .getppid = .ok (5 : Nat) := by
  refine ppid_forker (v := 0) (S := run boot (family.take 3)) (reach_of _ (by decide +kernel)) ?_ ?_ ?_ _ ?_
  · intro h
    have : ((run boot (family.take 3)).k.cages 5).isSome = true := by decide +kernel
    rw [h] at this; cases this
  · have : ((run boot (family.take 3)).k.cages 6).isSome = false := by decide +kernel
    cases h : (run boot (family.take 3)).k.cages 6 with
    | none => rfl
    | some x => rw [h] at this; cases this
  · decide +kernel
  · intro e he
    rcases List.mem_cons.1 he with rfl | he
    · trivial
    rcases List.mem_cons.1 he with rfl | he
    · trivial
    rcases List.mem_cons.1 he with rfl | he
    · show (1 : Nat) ≠ 6; decide
    · cases he

/-- C70, violated: the first time a program asks, its user, and each of the other three, is -1, also after `exec`. -/
theorem first_uid_violated : answer boot 1 .getuid = .err .EPERM ∧ answer boot 1 .getegid = .err .EPERM ∧
    answer (run boot [(1, .getuid), (1, .getuid), (1, .sys (.exec 1))]) 1 .getuid = .err .EPERM := by decide +kernel

/-- C70, violated: after its parent has ended, a process is still told the parent's number, and that number may meanwhile be another
process's. -/
theorem orphan_violated : let S := run boot (family ++ [(5, .sys (.exit 0))])
    Reach S.k ∧ (S.k.cages 5).isNone = true ∧ answer S 6 .getppid = .ok 5 ∧
    answer (run S [(1, .sys (.fork 5))]) 6 .getppid = .ok 5 ∧ answer (run S [(1, .sys (.fork 5))]) 5 .getppid = .ok 1 := by
  refine ⟨reach_of _ (by decide +kernel), by decide +kernel⟩

/-- C70, violated: a program replaced by `exec` gets the number given to `exec`; its children are told the old one. -/
theorem exec_number_violated : let S := run boot (family ++ [(5, .sys (.exec 7))])
    Reach S.k ∧ answer S 7 .getpid = .ok 7 ∧ answer S 7 .getppid = .ok 1 ∧ (S.k.cages 5).isNone = true ∧ answer S 6 .getppid = .ok 5 := by
  refine ⟨reach_of _ (by decide +kernel), by decide +kernel⟩

/-- Two threads of cage 1, of which the second is marked: it ends, once, and the first does not (C71). -/
example : let T := play noThreads [.insert 1, .mark 1 70 false, .mark 1 71 false, .mark 1 71 true]
    (event T (.point 1 70)).2 = .unit ∧ (event T (.point 1 71)).2 = .ended ∧ (event T (.check 1 71)).2 = .val true ∧
    (event (play T [.point 1 71]) (.point 1 71)).2 = .unit := by decide +kernel

/-- C71, violated: a thread that the runtime has not registered, or has removed, ends the whole process at its next cancellation point; every
thread of a new process starts so. -/
theorem unregistered_thread_violated : (event (play noThreads [.insert 1]) (.point 1 70)).2 = .panic ∧
    (event (play noThreads [.insert 1, .mark 1 70 false, .remove 1 70]) (.point 1 70)).2 = .panic ∧
    (event (play noThreads [.insert 1]) (.check 1 70)).2 = .panic := by decide +kernel

end Verif.Ident
