import Verif.NamesKeptProps
import Verif.NsWitness

/-!
Concrete histories beside the theorems of `NamesKeptProps`.  The working directory of process 0 in `tree` is `/d` (inode 9), with
the file `f` (inode 10) and the directory `e` (inode 11).
-/

namespace Verif.Kernel
open Verif.Path Verif.Fs

/-- `/z`. -/
def pZ : Str := [47, 122]
/-- `f`, relative. -/
def rF : Str := [102]

theorem Runs.of {s : State} {h : List (Nat × Op)} (hb : runB s h = true) : Runs s h := by
  induction h generalizing s with
  | nil => exact .nil _
  | cons x h ih =>
    obtain ⟨c, op⟩ := x
    simp only [runB, Bool.and_eq_true, decide_eq_true_eq] at hb
    exact .cons (tameB_tame hb.1.1) hb.1.2 (ih hb.2)

/-- C96, violated: a process stands in a directory; another process gives the directory another name; now no relative path leads
anywhere for the first process, not even `.`, though the directory and the file in it exist. -/
theorem cwd_renamed_violated : let s := run tree [(1, .rename pD pZ)]
    Reach s ∧ st tree [46] = some (9, 6, 0) ∧ st tree rF = some (10, 2, 2) ∧
    ret s 0 (.stat [46]) = .err .ENOENT ∧ ret s 0 (.stat rF) = .err .ENOENT ∧ ret s 0 (.openP rF 0o102#32 0o666#32) = .err .ENOENT ∧
    st s pZ = some (9, 6, 0) ∧ st s (pZ ++ [47, 102]) = some (10, 2, 2) := by
  refine ⟨tree_reach.run [(1, .rename pD pZ)] (by decide +kernel), ?_⟩
  decide +kernel

/-- C96, violated: if the old name is then given to another directory, relative paths lead into that one: the first process makes
its file in a directory that it never entered. -/
theorem cwd_replaced_violated : let s := run tree [(1, .rename pD pZ), (1, .mkdir pD 0o777#32), (0, .openP rF 0o102#32 0o666#32)]
    Reach s ∧ st tree [46] = some (9, 6, 0) ∧ st s [46] = some (12, 4, 0) ∧ st s pF = some (13, 1, 0) ∧
    st s (pZ ++ [47, 102]) = some (10, 2, 2) := by
  refine ⟨tree_reach.run [(1, .rename pD pZ), (1, .mkdir pD 0o777#32), (0, .openP rF 0o102#32 0o666#32)] (by decide +kernel), ?_⟩
  decide +kernel

/-- C96, violated: the same with a directory that is removed and made again. -/
theorem cwd_removed_violated : let s := run tree [(0, .chdir pE), (1, .rmdir pE), (1, .mkdir pE 0o777#32)]
    Reach s ∧ st (run tree [(0, .chdir pE)]) [46] = some (11, 3, 0) ∧ st s [46] = some (12, 3, 0) := by
  refine ⟨tree_reach.run [(0, .chdir pE), (1, .rmdir pE), (1, .mkdir pE 0o777#32)] (by decide +kernel), ?_⟩
  decide +kernel

/-- A history in which much happens, but not to `/d/f`. -/
def busy : List (Nat × Op) :=
  [(1, .unlink pG), (1, .rmdir pE), (0, .write 3 [1, 2, 3]), (1, .mkdir pZ 0o777#32), (1, .chmod pF 0o600#32), (0, .fork 2), (2, .close 3),
   (1, .link pF pE), (1, .rename pE pG), (2, .exit 0)]

theorem busy_takes : takesAll tree busy = [[[100], [103]], [[100], [101]], [[100], [101]]] := by decide +kernel

theorem busy_makes : makesAll tree busy = [[[122]], [[100], [101]], [[100], [103]]] := by decide +kernel

/-- `names_kept_run_partial`, `names_made_run_partial`, and with them the one-step versions: the hypotheses hold of `/d/f`. -/
example : Reach tree ∧ Runs tree busy ∧ (∀ p ∈ takesAll tree busy, ¬ p <+: [[100], [102]]) ∧ (∀ p ∈ makesAll tree busy, ¬ p <+: [[100], [102]]) ∧
    Walk tree.fs.inodes rootIno [[100], [102]] 10 ∧ Walk (run tree busy).fs.inodes rootIno [[100], [102]] 10 := by
  have h1 : ∀ p ∈ takesAll tree busy, ¬ p <+: [[100], [102]] := by rw [busy_takes]; decide
  have hg : Fs.GoodPath [[100], [102]] := by
    intro n hn
    simp only [List.mem_cons, List.not_mem_nil, or_false] at hn
    rcases hn with rfl | rfl <;> exact ⟨by decide, by decide, by decide, by decide⟩
  exact ⟨tree_reach, .of (by decide +kernel), h1, by rw [busy_makes]; decide, tree_walk.1,
    names_kept_run_partial tree_reach (.of (by decide +kernel)) hg h1 tree_walk.1⟩

/-- `stat_kept_partial`, for the relative path `f`; `enoent_kept_partial`, for `q`. -/
example : st tree rF = some (10, 2, 2) ∧ st (run tree busy) rF = some (10, 2, 5) ∧ ret tree 0 (.stat [113]) = .err .ENOENT ∧
    ret (run tree busy) 0 (.stat [113]) = .err .ENOENT := by decide +kernel

example : ((tree.cages 0).map fun cg => (cg.cwd, cg.path rF)) = some (pD, [[100], [102]]) ∧
    ((run tree busy).cages 0).map (·.cwd) = some pD := by decide +kernel

/-- `rename_below_partial`: `/d` becomes `/z`, and `/z/f` is what `/d/f` was. -/
example : ret tree 1 (.stat pZ) = .err .ENOENT ∧ ret tree 1 (.rename pD pZ) = .ok 0 ∧
    st (step tree 1 (.rename pD pZ)).1 (pZ ++ [47, 102]) = st tree pF := by decide +kernel

end Verif.Kernel
