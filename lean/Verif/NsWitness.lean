import Verif.NsCalls

/-!
Concrete histories beside the theorems of `NsProps` and `NsCalls`: examples that meet their hypotheses, and
witnesses (`_violated`) of the cases where the code does not do what the property says.
-/

set_option linter.unusedSimpArgs false

namespace Verif.Kernel
open Verif.Fs Verif.Path Verif.Getdents

/-! ## A concrete tree -/

/-- `/d`. -/
def pD : Str := [47, 100]
/-- `/d/f`. -/
def pF : Str := [47, 100, 47, 102]
/-- `/d/g`. -/
def pG : Str := [47, 100, 47, 103]
/-- `/d/e`, a directory. -/
def pE : Str := [47, 100, 47, 101]

/-- `mkdir /d; open /d/f (creating); write; link /d/f /d/g; mkdir /d/e; chdir /d; open /d/e`. -/
def treeOps : List (Nat × Op) :=
  [(0, .mkdir pD 0o777#32), (0, .openP pF 0o102#32 0o666#32), (0, .write 3 [5, 6]), (0, .link pF pG),
   (0, .mkdir pE 0o755#32), (0, .chdir pD), (0, .openP pE 0#32 0#32)]

def tree : State := run init treeOps

theorem tree_reach : Reach tree := Reach.init.run treeOps (by decide +kernel)

/-- The result of a call. -/
def ret (s : State) (c : Nat) (op : Op) : Ret := (step s c op).2.ret

/-- What `stat` of `p` reports: inode, link count and size. -/
def st (s : State) (p : Str) : Option (Nat × Nat × Nat) :=
  (step s 0 (.stat p)).2.stat.map (fun t => (t.ino, t.nlink, t.size))

theorem tree_inodes : st tree pD = some (9, 6, 0) ∧ st tree pF = some (10, 2, 2) ∧ st tree pG = some (10, 2, 2) ∧
    st tree pE = some (11, 3, 0) ∧ tree.fs.next = 12 := by decide +kernel

/-- The working directory of cage 0 in `tree` is `/d`; the names of the relative path `../d/./f` are `d`, `f`. -/
theorem tree_cage : ∃ cg, tree.cages 0 = some cg ∧ cg.cwd = pD ∧ cg.fds 9 = none ∧
    cg.path [46, 46, 47, 100, 47, 46, 47, 102] = [[100], [102]] ∧ cg.path pE = [[100], [101]] := by
  have hs : (tree.cages 0).isSome := by decide +kernel
  have h1 : (tree.cages 0).map (fun cg => (cg.cwd, (cg.fds 9).isNone, cg.path [46, 46, 47, 100, 47, 46, 47, 102], cg.path pE))
      = some (pD, true, [[100], [102]], [[100], [101]]) := by decide +kernel
  obtain ⟨cg, hc⟩ := Option.isSome_iff_exists.1 hs
  rw [hc] at h1
  simp only [Option.map_some, Option.some.injEq, Prod.mk.injEq, Option.isNone_iff_eq_none] at h1
  exact ⟨cg, hc, h1.1, h1.2.1, h1.2.2.1, h1.2.2.2⟩

theorem tree_walk : Walk tree.fs.inodes rootIno [[100], [102]] 10 ∧ Walk tree.fs.inodes rootIno [[100], [101]] 11 ∧
    Walk tree.fs.inodes rootIno [[100]] 9 := by
  have e1 : (tree.fs.inodes 1).map (fun d => (d.isDir, d.ents.contains ([100], 9))) = some (true, true) := by decide +kernel
  have e2 : (tree.fs.inodes 9).map (fun d => (d.isDir, d.ents.contains ([102], 10), d.ents.contains ([101], 11))) =
    some (true, true, true) := by decide +kernel
  obtain ⟨d1, h1, x1⟩ := Option.map_eq_some_iff.1 e1
  obtain ⟨d2, h2, x2⟩ := Option.map_eq_some_iff.1 e2
  simp only [Prod.mk.injEq, List.contains_iff_mem] at x1 x2
  exact ⟨.down h1 x1.1 x1.2 (.down h2 x2.1 x2.2.1 (.here _)), .down h1 x1.1 x1.2 (.down h2 x2.1 x2.2.2 (.here _)),
    .down h1 x1.1 x1.2 (.here _)⟩

/-! ## C18, C55 -/

/-- A relative path with `..` and `.` leads to inode 10 (C18). -/
example : ∃ cg, tree.cages 0 = some cg ∧ Leads tree cg [46, 46, 47, 100, 47, 46, 47, 102] 10 := by
  obtain ⟨cg, h, -, -, h2, -⟩ := tree_cage
  exact ⟨cg, h, by rw [Leads, h2]; exact tree_walk.1⟩

/-- The hypotheses of `directories_well_formed` for `/d/e` (C55). -/
example : ∃ nd, (∀ n ∈ [[100], [101]], isDots n = false) ∧ Walk tree.fs.inodes rootIno [[100], [101]] 11 ∧
    tree.fs.inodes 11 = some nd ∧ nd.kind = .dir ∧ ([46, 46], 9) ∈ nd.ents := by
  have e1 : (tree.fs.inodes 11).map (fun d => (d.kind, d.ents.contains ([46, 46], 9))) = some (.dir, true) := by decide +kernel
  obtain ⟨d1, h1, x1⟩ := Option.map_eq_some_iff.1 e1
  simp only [Prod.mk.injEq, List.contains_iff_mem] at x1
  exact ⟨d1, by decide, tree_walk.2.1, h1, x1.1, x1.2⟩

/-- Why `directories_well_formed` speaks of directories with a path: a directory removed while open keeps its `..`
entry, and after its parent is removed too that entry names nothing.  `fchdir` on it then aborts (C46). -/
theorem removed_dir_dotdot_violated :
    let s := run tree [(0, .unlink pF), (0, .unlink pG), (0, .rmdir pE), (0, .rmdir pD)]
    Reach s ∧ st s pD = none ∧ (s.fs.inodes 11).map (fun d => d.ents.contains ([46, 46], 9)) = some true ∧
    s.fs.inodes 9 = none ∧ ret s 0 (.fchdir 4) = .panic := by
  refine ⟨tree_reach.run _ (by decide +kernel), by decide +kernel, by decide +kernel, ?_, by decide +kernel⟩
  have : ((run tree [(0, .unlink pF), (0, .unlink pG), (0, .rmdir pE), (0, .rmdir pD)]).fs.inodes 9).isNone = true := by
    decide +kernel
  simpa using this

/-! ## C13, C14 -/

/-- Link counts and references in `tree`: the file has two names and one descriptor, `/d` has five entries. -/
example : numNames tree 10 = 2 ∧ (tree.fs.inodes 10).map (fun d => (d.kind, d.link, d.ref)) = some (.file, 2, 1) ∧
    (tree.fs.inodes 9).map (fun d => (d.kind, d.link, d.ents.length)) = some (.dir, 6, 5) ∧
    countSlots tree.cages (isFileOf 10) = 1 := by decide +kernel

/-- C13.  A directory removed while a descriptor is open on it is not reclaimed when the descriptor is closed: it has
no name and no descriptor, and still exists. -/
theorem rmdir_open_violated : let s := run tree [(0, .rmdir pE), (0, .close 4)]
    Reach s ∧ (s.fs.inodes 11).map (fun d => (d.kind, d.link, d.ref)) = some (.dir, 3, 0) ∧ numNames s 11 = 0 ∧
    countSlots s.cages (isFileOf 11) = 0 := by
  refine ⟨tree_reach.run _ (by decide +kernel), by decide +kernel, by decide +kernel, by decide +kernel⟩

/-- C14, C25.  `unlink` in a directory without write permission fails with EPERM, but the link count of the file has been
lowered: `stat` now reports 1 for a file that has two names.  A second failing call and a close reclaim the file,
and the remaining names lead nowhere: the next lookup aborts. -/
theorem failed_unlink_violated : let s := run tree [(0, .chmod pD 0o555#32)]
    let s1 := (step s 0 (.unlink pF)).1
    let s3 := run s [(0, .unlink pF), (0, .unlink pF), (0, .close 3)]
    Reach s ∧ ret s 0 (.unlink pF) = .err .EPERM ∧ st s pF = some (10, 2, 2) ∧ st s1 pF = some (10, 1, 2) ∧
    numNames s1 10 = 2 ∧ numNames s3 10 = 2 ∧ (s3.fs.inodes 10).isNone = true ∧ ret s3 0 (.stat pF) = .panic := by
  refine ⟨tree_reach.run _ (by decide +kernel), by decide +kernel, by decide +kernel, by decide +kernel,
    by decide +kernel, by decide +kernel, by decide +kernel, by decide +kernel⟩

/-- C13, C14, C24.  `rename` onto an existing name: the file that had the target name keeps its link count of 1 and
exists although it has no name and no descriptor; the directory's link count is one too high. -/
theorem rename_overwrite_violated : let s := run init [(0, .openP pA 0o102#32 0o666#32), (0, .openP pD 0o102#32 0o666#32), (0, .close 4)]
    let s' := (step s 0 (.rename pA pD)).1
    Reach s ∧ ret s 0 (.rename pA pD) = .ok 0 ∧ st s pA = some (9, 1, 0) ∧ st s pD = some (10, 1, 0) ∧
    st s' pD = some (9, 1, 0) ∧ numNames s' 10 = 0 ∧ countSlots s'.cages (isFileOf 10) = 0 ∧
    (s'.fs.inodes 10).map (fun d => (d.link, d.ref)) = some (1, 0) ∧
    (s'.fs.inodes 1).map (fun d => (d.link, d.ents.length)) = some (7, 5) := by
  refine ⟨Reach.init.run _ (by decide +kernel), by decide +kernel, by decide +kernel, by decide +kernel,
    by decide +kernel, by decide +kernel, by decide +kernel, by decide +kernel, by decide +kernel⟩

/-! ## C25, C56 -/

/-- Calls that fail in `tree` (C25). -/
example : ret tree 0 (.mkdir pD 0o777#32) = .err .EEXIST ∧ ret tree 0 (.rmdir pD) = .err .ENOTEMPTY ∧
    ret tree 0 (.link pF pG) = .err .EEXIST ∧ ret tree 0 (.unlink pD) = .err .EISDIR ∧
    ret tree 0 (.openP [47, 122, 47, 122] 0o102#32 0o666#32) = .err .ENOENT := by decide +kernel

/-- `access`: `/d/e` has mode 0755, owner bits; after `chmod 0555` writing is refused (C56). -/
example : ret tree 0 (.access pE 7#32) = .ok 0 ∧
    ret (run tree [(0, .chmod pE 0o555#32)]) 0 (.access pE 2#32) = .err .EACCES ∧
    ret (run tree [(0, .chmod pE 0o555#32)]) 0 (.access pE 5#32) = .ok 0 ∧
    ret tree 0 (.access [122] 0#32) = .err .ENOENT := by decide +kernel

/-- A mode that is not valid, and a name that is free (C56). -/
example : ¬ ModeValid 0o1777#32 ∧ ret tree 0 (.mkdir [122] 0o777#32) = .ok 0 ∧
    ret tree 0 (.mkdir [122] 0o1777#32) = .err .EPERM := by
  refine ⟨by simp [ModeValid], by decide +kernel, by decide +kernel⟩

/-! ## C19 -/

/-- Opening: existing with O_CREAT|O_EXCL, missing without O_CREAT, creating `/d/z` by the relative name `z`. -/
example : ret tree 0 (.openP pF 0o302#32 0o666#32) = .err .EEXIST ∧ ret tree 0 (.openP [122] 2#32 0#32) = .err .ENOENT ∧
    ret tree 0 (.openP [122] 0o302#32 0o640#32) = .ok 5 ∧
    st (run tree [(0, .openP [122] 0o302#32 0o640#32)]) [47, 100, 47, 122] = some (12, 1, 0) := by decide +kernel

/-- C19.  With O_ASYNC (020000) in the flags a new file is not created: EINVAL (the code tests the flags for the
file type bits of a character device). -/
theorem open_async_violated : ret tree 0 (.openP [122] 0o20102#32 0o666#32) = .err .EINVAL ∧
    ret tree 0 (.openP pF 0o20002#32 0o666#32) = .ok 5 := by decide +kernel

/-! ## C15 -/

/-- `rmdir` of the empty `/d/e` succeeds, of `/d` fails, and the path is gone afterwards. -/
example : ret tree 0 (.rmdir pE) = .ok 0 ∧ ret tree 0 (.rmdir pD) = .err .ENOTEMPTY ∧
    ret tree 0 (.rmdir pF) = .err .ENOTDIR ∧ ret (run tree [(0, .rmdir pE)]) 0 (.stat pE) = .err .ENOENT := by
  decide +kernel

/-- C15.  An empty directory without write permission of its own is not removed, though its parent is writable. -/
theorem rmdir_own_mode_violated : let s := run tree [(0, .chmod pE 0o555#32)]
    Reach s ∧ st s pE = some (11, 3, 0) ∧ ret s 0 (.rmdir pE) = .err .EPERM := by
  refine ⟨tree_reach.run _ (by decide +kernel), by decide +kernel, by decide +kernel⟩

/-- C15, C58.  `mkdir` accepts a mode with file type bits of another kind; `rmdir` of that directory aborts. -/
theorem rmdir_type_bits_violated : let s := run tree [(0, .mkdir [122] 0o100755#32)]
    Reach s ∧ ret tree 0 (.mkdir [122] 0o100755#32) = .ok 0 ∧ ret s 0 (.rmdir [122]) = .panic := by
  refine ⟨tree_reach.run _ (by decide +kernel), by decide +kernel, by decide +kernel⟩

/-! ## C24 -/

/-- Renaming `/d/f` to the free name `/d/z`: succeeds; the old name is gone, the new name leads to the file. -/
example : ret tree 0 (.rename pF [122]) = .ok 0 ∧ ret tree 0 (.stat [122]) = .err .ENOENT ∧
    (let s := (step tree 0 (.rename pF [122])).1; st s [122] = some (10, 2, 2) ∧ st s pF = none) := by decide +kernel

/-- C24.  Renaming a file to its own name removes the name. -/
theorem rename_self_violated : let s := (step tree 0 (.rename pE pE)).1
    ret tree 0 (.rename pE pE) = .ok 0 ∧ ret s 0 (.stat pE) = .err .ENOENT := by decide +kernel

/-- C24.  Renaming something that does not exist: EEXIST instead of ENOENT.  To another directory: EOPNOTSUPP. -/
theorem rename_errors_violated : ret tree 0 (.rename [122] [121]) = .err .EEXIST ∧
    ret tree 0 (.rename pF [47, 122]) = .err .EOPNOTSUPP := by decide +kernel

/-! ## C51 -/

/-- `unlink` of both names of the file open on descriptor 3: content stays, and goes with the last close. -/
example : let s := run tree [(0, .unlink pF), (0, .unlink pG)]
    Reach s ∧ (step s 0 (.pread 3 9 0)).2 = { ret := .ok 2, data := [5, 6] } ∧ numNames s 10 = 0 ∧
    ((run s [(0, .close 3)]).fs.disk 10).isNone = true := by
  refine ⟨tree_reach.run _ (by decide +kernel), by decide +kernel, by decide +kernel, by decide +kernel⟩

/-! ## C46 -/

/-- `chdir` and `fchdir` in `tree`: descriptor 4 is `/d/e`. -/
example : ret tree 0 (.chdir [46, 46]) = .ok 0 ∧ ret tree 0 (.chdir [122]) = .err .ENOENT ∧
    ret tree 0 (.chdir pF) = .err .ENOTDIR ∧ ret tree 0 (.fchdir 4) = .ok 0 ∧
    ((run tree [(0, .fchdir 4)]).cages 0).map Cage.cwd = some pE := by decide +kernel

/-- C46.  `fchdir` on a descriptor of the root directory does not return: the thread asks again for the lock it holds. -/
theorem fchdir_root_violated : let s := run tree [(0, .openP [47] 0#32 0#32)]
    Reach s ∧ ret tree 0 (.openP [47] 0#32 0#32) = .ok 5 ∧ ret s 0 (.fchdir 5) = .blocked := by
  refine ⟨tree_reach.run _ (by decide +kernel), by decide +kernel, by decide +kernel⟩

end Verif.Kernel
