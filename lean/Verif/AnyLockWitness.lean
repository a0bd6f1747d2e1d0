import Verif.AnyLockProps

/-! # Cases of C114 with mkdir and link -/

namespace Verif.AnyLock
open Verif.Fs Verif.Kernel Verif.Path
open Verif.LockFile (Conf There Ok Start abs rel lockN begun begun_start lockN_good writable_of)

/-- `/f`, which process 0 makes -/
def pF : Str := [47, 102]

/-- Process 0 takes the lock with `mkdir`; process 1 tries with `open` and with `link` in vain; process 0 gives it back with `rmdir`; process 1 gets it with
`link`, process 0 cannot make the directory, and process 1 gives the lock back with `unlink`. -/
def story : List Move :=
  [.take 0 abs (.dir 0o700#32), .other 0 (.openP pF 0o101#32 0o644#32), .take 1 rel (.file 0o301#32 0o600#32), .take 1 rel (.link pF),
   .give 0 abs true, .take 1 rel (.link pF), .take 0 abs (.dir 0o700#32), .give 1 rel false]

theorem story_runs : Runs lockN begun story (story.foldl next begun) := by
  have hN : lockN ≠ [] := by decide
  have step1 : ∀ {x : Conf} {m : Move} {ms : List Move} {y : Conf}, Ok lockN x → Fair lockN x m → (Ok lockN (next x m) → Runs lockN (next x m) ms y) →
      Runs lockN x (m :: ms) y := fun h f k => .cons f (k ((Runs.cons f (.nil _)).ok hN h))
  refine step1 begun_start.ok ⟨⟨_, rfl, by decide +kernel⟩, trivial⟩ fun h1 => ?_
  refine step1 h1 ⟨trivial, by decide +kernel, by decide +kernel⟩ fun h2 => ?_
  refine step1 h2 ⟨⟨_, rfl, by decide +kernel⟩, by show _ = _; decide⟩ fun h3 => ?_
  refine step1 h3 ⟨⟨_, rfl, by decide +kernel⟩, trivial⟩ fun h4 => ?_
  refine step1 h4 ⟨⟨_, rfl, by decide +kernel⟩, by decide +kernel, nofun⟩ fun h5 => ?_
  refine step1 h5 ⟨⟨_, rfl, by decide +kernel⟩, trivial⟩ fun h6 => ?_
  refine step1 h6 ⟨⟨_, rfl, by decide +kernel⟩, trivial⟩ fun h7 => ?_
  refine step1 h7 ⟨⟨_, rfl, by decide +kernel⟩, by decide +kernel, fun _ => writable_of h7.reach lockN_good (by decide +kernel)⟩ fun _ => .nil _

/-- Who has the lock after each of these moves. -/
example : (List.range 9).map (fun n => ((story.take n).foldl next begun).holders) = [[], [0], [0], [0], [0], [], [1], [1], []] := by
  decide +kernel

example : ¬ There (story.foldl next begun).s lockN := by
  intro h
  have := (any_lock_exclusive_partial begun_start story_runs).2.2 h
  exact this (by decide +kernel)

/-- C114, violated: two threads make the directory at the same time, and both are told that they made it. -/
theorem dir_lock_two_violated : ∃ ms : List NameConc.Act, let s := NameConc.run NameConc.s0 ms
    ms.filter (fun a => match a with | .start _ _ => true | _ => false) =
      [.start 0 (.mkdir NameConc.dx 0o755#32), .start 1 (.mkdir NameConc.dx 0o755#32)] ∧
    NameConc.s0.fs.walk NameConc.dx = some (none, some 9) ∧ s.dead = false ∧ s.res 0 = some (.ret (.ok 0)) ∧ s.res 1 = some (.ret (.ok 0)) :=
  ⟨[.start 0 (.mkdir NameConc.dx 0o755#32)] ++ NameConc.by_ 0 3 ++ NameConc.whole 1 (.mkdir NameConc.dx 0o755#32) ++ NameConc.by_ 0 20,
    by decide +kernel, by decide +kernel, by decide +kernel, by decide +kernel, by decide +kernel⟩

end Verif.AnyLock
