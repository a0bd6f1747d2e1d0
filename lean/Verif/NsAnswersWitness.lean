import Verif.NsAnswers
import Verif.NsWitness

/-!
Concrete cases beside the theorems of `NsAnswers` (C62), and the answers that are not the ones POSIX gives.
-/

namespace Verif.Kernel
open Verif.Fs Verif.Path Verif.Getdents

/-- In `tree`: the places of `/`, `/d/f`, `/d/z`, and of `/d/f/z` and `/z/z`. -/
theorem tree_places : ∃ cg, tree.cages 0 = some cg ∧ At tree cg [47] .root ∧ At tree cg pF (.object 9 [102] 10) ∧
    At tree cg [122] (.free 9 [122]) ∧ At tree cg [102, 47, 122] .nowhere ∧ At tree cg [47, 122, 47, 122] .nowhere := by
  obtain ⟨cg, hc, -⟩ := tree_cage
  have e : (tree.cages 0).map (fun cg => [cg.path [47], cg.path pF, cg.path [122], cg.path [102, 47, 122],
    cg.path [47, 122, 47, 122]]) = some [[], [[100], [102]], [[100], [122]], [[100], [102], [122]], [[122], [122]]] := by
    decide +kernel
  rw [hc] at e
  simp only [Option.map_some, Option.some.injEq, List.cons.injEq, and_true] at e
  obtain ⟨e1, e2, e3, e4, e5⟩ := e
  obtain ⟨w1, -, w2⟩ := tree_walk
  have hk : (tree.fs.inodes 9).map Inode.kind = some .dir := by decide +kernel
  obtain ⟨d9, h9, k9⟩ := Option.map_eq_some_iff.1 hk
  have hents : (entries tree 9).contains ([102], 10) = true ∧ (entries tree 9).all (fun e => e.1 != [122]) = true ∧
      (entries tree 1).all (fun e => e.1 != [122]) = true ∧ (tree.fs.inodes 10).map Inode.kind = some .file := by decide +kernel
  obtain ⟨h1, h2, h3, h4⟩ := hents
  refine ⟨cg, hc, e1, ⟨[[100]], e2, w2, ⟨d9, h9, k9⟩, ?_⟩, ⟨[[100]], e3, w2, ⟨d9, h9, k9⟩, ?_⟩, ⟨[[100], [102]], [122], e4, ?_⟩,
    ⟨[[122]], [122], e5, ?_⟩⟩
  · simpa [Entry] using h1
  · intro i hi
    have := List.all_eq_true.1 h2 _ hi
    simp at this
  · rintro d w ⟨nd, a, b⟩
    have := walk_fun tree_reach.inv.fs.tree w w1; subst this
    rw [a] at h4; simp [b] at h4
  · rintro d w -
    cases w with
    | down a b hm w =>
      have : Entry tree 1 [122] _ := (entry_iff a).2 hm
      have := List.all_eq_true.1 h3 _ this
      simp at this

/-- The answers at those places. -/
example : ret tree 0 (.mkdir [122] 0o755#32) = .ok 0 ∧ ret tree 0 (.mkdir pF 0o755#32) = .err .EEXIST ∧
    ret tree 0 (.mkdir [47, 122, 47, 122] 0o755#32) = .err .ENOENT ∧
    ret tree 0 (.mknod [122] 0o20666#32 0x103#64) = .ok 0 ∧ ret tree 0 (.mknod [122] 0o100666#32 0#64) = .err .EINVAL ∧
    ret tree 0 (.unlink [47]) = .err .EISDIR ∧ ret tree 0 (.unlink pF) = .ok 0 ∧ ret tree 0 (.unlink [122]) = .err .ENOENT ∧
    ret tree 0 (.rmdir [47]) = .err .EBUSY ∧ ret tree 0 (.rmdir pF) = .err .ENOTDIR ∧ ret tree 0 (.rmdir pE) = .ok 0 ∧
    ret tree 0 (.link pF [122]) = .ok 0 ∧ ret tree 0 (.link pE [122]) = .err .EPERM ∧ ret tree 0 (.link pF pG) = .err .EEXIST ∧
    ret tree 0 (.rename pF [122]) = .ok 0 ∧ ret tree 0 (.rename pF [47, 122]) = .err .EOPNOTSUPP ∧
    ret tree 0 (.chmod pF 0o1777#32) = .err .EINVAL ∧ ret tree 0 (.chdir pF) = .err .ENOTDIR ∧
    ret tree 0 (.truncate pE 3) = .err .EISDIR ∧ ret tree 0 (.truncate pF (-1)) = .err .EINVAL ∧
    ret tree 0 (.openP pF 0o302#32 0#32) = .err .EEXIST ∧ ret tree 0 (.openP [122] 0o102#32 0o10000777#32) = .err .EPERM := by
  decide +kernel

/-- C62.  `rename` of a name that does not exist is EEXIST instead of ENOENT. -/
theorem rename_missing_violated : ret tree 0 (.rename [122] pG) = .err .EEXIST ∧ ret tree 0 (.stat [122]) = .err .ENOENT := by
  decide +kernel

/-- C62.  A path through a regular file is ENOENT instead of ENOTDIR: `/d/f` is a file. -/
theorem not_a_directory_violated : let p := pF ++ [47, 122]
    ret tree 0 (.stat pF) = .ok 0 ∧ ret tree 0 (.stat p) = .err .ENOENT ∧ ret tree 0 (.mkdir p 0o755#32) = .err .ENOENT ∧
    ret tree 0 (.openP p 0o102#32 0o666#32) = .err .ENOENT ∧ ret tree 0 (.unlink p) = .err .ENOENT := by decide +kernel

/-- C62.  `link` to the root aborts instead of failing with EEXIST, whatever the old path is. -/
theorem link_to_root_violated : ret tree 0 (.link pF [47]) = .panic ∧ ret tree 0 (.link [122] [47]) = .panic := by
  decide +kernel

/-- C62.  A directory can be opened for writing (POSIX: EISDIR). -/
theorem open_directory_violated : ret tree 0 (.openP pE 1#32 0#32) = .ok 5 := by decide +kernel

/-- C62.  `rename` across directories is EOPNOTSUPP. -/
theorem rename_across_violated : ret tree 0 (.rename pF [47, 122]) = .err .EOPNOTSUPP ∧
    ret tree 0 (.stat [47, 122]) = .err .ENOENT := by decide +kernel

/-- What `mkdir z`, `mknod z` and `link f z` make in `tree`. -/
example : st (run tree [(0, .mkdir [122] 0o755#32)]) [122] = some (12, 3, 0) ∧
    st (run tree [(0, .mknod [122] 0o20666#32 0x103#64)]) [122] = some (12, 1, 0) ∧
    st (run tree [(0, .link pF [122])]) [122] = some (10, 3, 2) := by decide +kernel

end Verif.Kernel
