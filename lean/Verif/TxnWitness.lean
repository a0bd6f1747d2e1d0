import Verif.TxnProps
import Verif.RecordsWitness
import Verif.AnyLockWitness

/-! # Cases of C115 -/

namespace Verif.Txn
open Verif.Fs Verif.Kernel Verif.Path
open Verif.LockFile (lockN lockN_good writable_of)
open Verif.Records (ready ready_reach ready_start)

/-- `/tmp/l` -/
def lock : Str := [47, 116, 109, 112, 47, 108]

def plan : Plan := { file := Records.plan, lock := lockN }

def start : Conf := { x := ⟨ready, []⟩, log := [] }

theorem ready_missing : ¬ LockFile.There ready lockN := by
  obtain ⟨cg, hc, hp⟩ : ∃ cg, ready.cages 0 = some cg ∧ cg.path lock = lockN := ⟨_, rfl, by decide +kernel⟩
  rintro ⟨k, hk⟩
  refine (lookup_exact ready_reach hc lock).2.2 (by decide +kernel) k ?_
  unfold Leads; rw [hp]; exact hk

/-- The hypotheses hold of it. -/
theorem start_start : Start plan start := ⟨⟨ready_reach, rfl, lockN_good, ready_missing⟩, ready_start, rfl⟩

/-- Both processes add one to every byte of record 0; process 0 makes the lock with `mkdir`, process 1 with `open`; process 1 has to wait. -/
def day : List Move :=
  [.take 0 lock (.dir 0o700#32), .get 0 0, .take 1 lock (.file 0o301#32 0o600#32), .get 1 0, .put 1 0 [9, 9], .put 0 0 [2, 3], .give 1 lock false,
   .give 0 lock true, .take 1 lock (.file 0o301#32 0o600#32), .get 1 0, .take 0 lock (.dir 0o700#32), .put 1 0 [3, 4], .give 1 lock false]

theorem day_runs : Runs plan start day (day.foldl (next plan) start) := by
  have step1 : ∀ {x : Conf} {m : Move} {ms : List Move} {y : Conf}, Ok plan (Records.record plan.file ready) (bytes ready 9) x → Fair plan x m →
      (Ok plan (Records.record plan.file ready) (bytes ready 9) (next plan x m) → Runs plan (next plan x m) ms y) →
      Runs plan x (m :: ms) y := fun h f k => .cons f (k ((Runs.cons f (.nil _)).ok (by decide) h))
  refine step1 start_start.ok ⟨⟨_, rfl, by decide +kernel⟩, trivial⟩ fun h => ?_
  refine step1 h ⟨by decide, by decide⟩ fun h => ?_
  refine step1 h ⟨⟨_, rfl, by decide +kernel⟩, by show _ = _; decide⟩ fun h => ?_
  refine step1 h ⟨by decide, by decide⟩ fun h => ?_
  refine step1 h ⟨by decide, by decide, rfl⟩ fun h => ?_
  refine step1 h ⟨by decide, by decide, rfl⟩ fun h => ?_
  refine step1 h ⟨⟨_, rfl, by decide +kernel⟩, by decide +kernel, fun _ => writable_of h.lock.reach lockN_good (by decide +kernel)⟩ fun h => ?_
  refine step1 h ⟨⟨_, rfl, by decide +kernel⟩, by decide +kernel, nofun⟩ fun h => ?_
  refine step1 h ⟨⟨_, rfl, by decide +kernel⟩, by show _ = _; decide⟩ fun h => ?_
  refine step1 h ⟨by decide, by decide⟩ fun h => ?_
  refine step1 h ⟨⟨_, rfl, by decide +kernel⟩, trivial⟩ fun h => ?_
  refine step1 h ⟨by decide, by decide, rfl⟩ fun h => ?_
  refine step1 h ⟨⟨_, rfl, by decide +kernel⟩, by decide +kernel, fun _ => writable_of h.lock.reach lockN_good (by decide +kernel)⟩ fun _ => .nil _

def both : List Tx := [⟨0, [.saw 0 0 [1, 2], .wrote 0 0 [2, 3]]⟩, ⟨1, [.saw 1 0 [2, 3], .wrote 1 0 [3, 4]]⟩]

/-- What came of it: two transactions, one after the other, and the record changed twice. -/
example : (day.foldl (next plan) start).log = both.flatMap Tx.whole ∧ bytes (day.foldl (next plan) start).x.s 9 = [3, 4, 3, 4, 9] := by
  refine ⟨rfl, ?_⟩
  decide +kernel

example : Records.record plan.file (day.foldl (next plan) start).x.s 0 = both.foldl (fun v _ => v.map (· + 1)) [1, 2] := by
  refine (no_lost_update_partial start_start day_runs (ts := both) rfl (k := 0) (by decide) (fun _ v => v.map (· + 1)) ?_).trans ?_
  · intro t ht
    simp only [both, List.mem_cons, List.not_mem_nil, or_false] at ht
    rcases ht with rfl | rfl
    · exact ⟨[1, 2], rfl⟩
    · exact ⟨[2, 3], rfl⟩
  · decide +kernel

/-- The same without the lock, for comparison: both read before either writes, and one of the two changes is lost though all calls succeed.  And
two threads that make the lock at the same moment both get it (`AnyLock.dir_lock_two_violated`), so that this happens with the lock too. -/
theorem no_lock_lost : let s := run ready [(0, .pread 3 2 0), (1, .pread 3 2 0), (0, .pwrite 3 [2, 3] 0), (1, .pwrite 3 [2, 3] 0)]
    Reach s ∧ Records.record plan.file s 0 = [2, 3] := by
  intro s
  exact ⟨ready_reach.run _ (by decide +kernel), by decide +kernel⟩

end Verif.Txn
