import Verif.LockedAppendProps
import Verif.FollowWitness

/-! # Cases of C111 -/

namespace Verif.LockedAppend
open Verif.Fs Verif.Kernel Verif.Path
open Verif.Follow (pL ready ready_reach)
open Verif.LockFile (lockN)

/-- `/tmp/l` -/
def lock : Str := [47, 116, 109, 112, 47, 108]

/-- `Follow.ready` and process 1 has the log open for writing too, at its beginning. -/
def both : State := run ready [(1, .close 3), (1, .openP pL 1#32 0#32)]

theorem both_reach : Reach both := ready_reach.run _ (by decide +kernel)

def plan : Plan := { writers := [0, 1], fd := fun _ => 3, i := 9, lock := lockN }

def start : Conf := { x := ⟨both, []⟩, atEnd := fun _ => false, sent := [] }

theorem both_missing : ¬ LockFile.There both lockN := by
  obtain ⟨cg, hc, hp⟩ : ∃ cg, both.cages 0 = some cg ∧ cg.path lock = lockN := ⟨_, rfl, by decide +kernel⟩
  rintro ⟨k, hk⟩
  refine (lookup_exact both_reach hc lock).2.2 (by decide +kernel) k ?_
  unfold Leads; rw [hp]; exact hk

/-- The hypotheses hold of it. -/
theorem both_start : Start plan start := by
  have h1 : slot both 0 3 = some (.file 9 2 1#32) := by decide +kernel
  have h2 : slot both 1 3 = some (.file 9 0 1#32) := by decide +kernel
  refine ⟨⟨both_reach, rfl, LockFile.lockN_good, both_missing⟩, rfl, fun _ => rfl, by simp [plan], ⟨2, Pipeline.file_of (by decide +kernel)⟩, ?_⟩
  intro c hc
  simp only [plan, List.mem_cons, List.not_mem_nil, or_false] at hc
  rcases hc with rfl | rfl
  · exact ⟨2, 1#32, Pipeline.openOn_of_slot (by decide) h1, by decide⟩
  · exact ⟨0, 1#32, Pipeline.openOn_of_slot (by decide) h2, by decide⟩

/-- Both want to write; process 1 has to wait until process 0 gives the lock back. -/
def day : List Move :=
  [.take 0 lock 0o301#32 0o600#32, .take 1 lock 0o301#32 0o600#32, .seek 0, .seek 1, .put 1 [66], .put 0 [67, 10], .put 0 [68, 10],
   .give 0 lock, .put 0 [69], .take 1 lock 0o301#32 0o600#32, .seek 1, .put 1 [70, 10]]

/-- The decidable part of what `Fair` asks of these moves. -/
def okay (y : Conf) : Move → Bool
  | .take c p flags _ => (match y.x.s.cages c with | some cg => cg.path p == lockN | none => false) && (flags &&& 0o300#32 == 0o300#32)
  | .seek c => plan.writers.contains c
  | .put c d => plan.writers.contains c && decide (d.length < 2147483648)
  | .give c p => (match y.x.s.cages c with | some cg => cg.path p == lockN | none => false) &&
      (match y.x.s.fs.walk lockN with
      | some (_, some par) => (match y.x.s.fs.inodes par with | some nd => decide (nd.mode &&& 0o222#32 ≠ 0#32) | none => false)
      | _ => false)
  | .other _ _ => false

def okays : Conf → List Move → Bool
  | _, [] => true
  | y, m :: ms => okay y m && okays (next plan y m) ms

theorem okay_fair {D : List UInt8} {y : Conf} (h : Ok plan D y) {m : Move} (hm : okay y m = true) : Fair plan y m := by
  cases m with
  | take c p flags mode =>
    simp only [okay, Bool.and_eq_true, beq_iff_eq] at hm
    cases hc : y.x.s.cages c with
    | none => rw [hc] at hm; cases hm.1
    | some cg => rw [hc] at hm; exact ⟨⟨cg, hc, by simpa [plan] using hm.1⟩, hm.2⟩
  | seek c => simpa [okay, Fair] using hm
  | put c d => simpa [okay, Fair] using hm
  | give c p =>
    simp only [okay, Bool.and_eq_true] at hm
    cases hc : y.x.s.cages c with
    | none => rw [hc] at hm; cases hm.1
    | some cg =>
      rw [hc] at hm
      exact ⟨⟨cg, hc, by simpa [plan] using hm.1⟩, LockFile.writable_of h.lock.reach LockFile.lockN_good hm.2⟩
  | other c op => cases hm

theorem okays_runs {D : List UInt8} : ∀ {ms : List Move} {y : Conf} (_ : Ok plan D y) (_ : okays y ms = true), Runs plan y ms (ms.foldl (next plan) y)
  | [], y, _, _ => .nil y
  | m :: ms, y, h, hm => by
    simp only [okays, Bool.and_eq_true] at hm
    have f := okay_fair h hm.1
    exact .cons f (okays_runs (h.next f) hm.2)

theorem day_runs : Runs plan start day (day.foldl (next plan) start) := okays_runs both_start.ok (by decide +kernel)

/-- What came of it: the records of process 0, then that of process 1. -/
example : (day.foldl (next plan) start).sent = [(0, [67, 10]), (0, [68, 10]), (1, [70, 10])] ∧
    bytes (day.foldl (next plan) start).x.s 9 = [65, 10, 67, 10, 68, 10, 70, 10] := by
  constructor <;> decide +kernel

example : bytes (day.foldl (next plan) start).x.s 9 =
    bytes both 9 ++ ((day.foldl (next plan) start).sent.map (·.2)).flatten := (locked_append_partial both_start day_runs).1

end Verif.LockedAppend
