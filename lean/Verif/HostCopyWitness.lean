import Verif.HostCopyUpdateTree

/-! # Copying from the host: concrete cases, and what the tools get wrong (property C75) -/

namespace Verif.HostCopy

open Verif.Path Verif.Fs Verif.Kernel Verif.FsTools

/-! ## Checking the hypotheses on a concrete state -/

/-- What is at a path. -/
def atPath (s : State) (q : List Name) : Option Inode :=
  match s.fs.walk q with
  | some (some i, _) => s.fs.inodes i
  | _ => none

/-- Looks at every ancestor. -/
def clearB (s : State) (ns : List Name) : Bool :=
  (List.range ns.length).all fun k => match atPath s (ns.take k) with | none => true | some nd => nd.isDir && modeIsDir nd.mode

theorem atPath_of {s : State} (h : Reach s) {c : Nat} {cg : Cage} (hc : s.cages c = some cg) {q : List Name} (hg : ∀ n ∈ q, Good n)
    {d : Nat} (w : Walk s.fs.inodes rootIno q d) : ∃ nd, s.fs.inodes d = some nd ∧ atPath s q = some nd := by
  have hcw := (h.inv.cage c cg hc).2.2
  have hl : Leads s cg (render q) d := by unfold Leads; rw [path_render hcw hg]; exact w
  obtain ⟨nd, hnd⟩ := h.inv.leads_exists hc hl
  obtain ⟨par, hw, -⟩ := h.inv.walk_found hc hl
  rw [path_render hcw hg] at hw
  exact ⟨nd, hnd, by simp only [atPath, hw, hnd]⟩

theorem clear_of {s : State} (h : Reach s) {c : Nat} {cg : Cage} (hc : s.cages c = some cg) {ns : List Name} (hg : ∀ n ∈ ns, Good n)
    (hb : clearB s ns = true) : Clear s ns := by
  intro q hq d w
  obtain ⟨n, t, rfl⟩ := hq
  obtain ⟨nd, h1, h2⟩ := atPath_of h hc (fun m hm => hg m (by simp [hm])) w
  have := List.all_eq_true.1 hb q.length (by simp)
  rw [List.take_left' rfl, h2] at this
  simp only [Bool.and_eq_true] at this
  exact ⟨nd, h1, this.1, this.2⟩

theorem nothing_of {s : State} (h : Reach s) {c : Nat} {cg : Cage} (hc : s.cages c = some cg) {ns : List Name} (hg : ∀ n ∈ ns, Good n)
    (hb : (atPath s ns).isNone = true) : ∀ i, ¬ Walk s.fs.inodes rootIno ns i := by
  intro i w
  obtain ⟨nd, -, h2⟩ := atPath_of h hc hg w
  rw [h2] at hb; cases hb

/-! ## Cases that meet the hypotheses -/

/-- A directory of the host: a file `f`, a directory `e` with a file `g` and a FIFO `p`, and an empty directory `m`. -/
def hostTree : Host :=
  .dir (.cons [102] (.file [1, 2]) (.cons [101] (.dir (.cons [103] (.file [3]) (.cons [112] .special .nil))) (.cons [109] (.dir .nil) .nil)))

/-- The hypotheses of `copy_tree` hold of this tree, `/d` and `demo`; so both files are there afterwards, and `/a` is as it was. -/
example : ∃ cg s', demo.cages 0 = some cg ∧ cpTree 0 true hostTree [47, 100] demo = .done s' ∧ s'.cages = demo.cages ∧
    (∃ i, Walk s'.fs.inodes rootIno [[100], [102]] i ∧ bytes s' i = [1, 2]) ∧
    (∃ i, Walk s'.fs.inodes rootIno [[100], [101], [103]] i ∧ bytes s' i = [3]) ∧
    (∀ i, ¬ Walk s'.fs.inodes rootIno [[100], [109]] i) ∧ Walk s'.fs.inodes rootIno [[97]] 9 ∧ bytes s' 9 = [1, 2, 3] := by
  obtain ⟨cg, hc, hP, h9⟩ : ∃ cg, demo.cages 0 = some cg ∧ cg.path [47, 100] = [[100]] ∧ cg.fds 9 = none :=
    ⟨_, rfl, by decide +kernel, by decide +kernel⟩
  have hok : hostTree.Ok := by
    simp only [hostTree, Host.Ok, Children.Ok, Children.names]
    refine ⟨?_, by decide, trivial, ?_, by decide, ⟨?_, by decide, trivial, ?_, by simp, trivial, trivial⟩, ?_, by simp, trivial, trivial⟩ <;>
      decide
  have hfiles : hostTree.files = [([[102]], [1, 2]), ([[101], [103]], [3])] := by decide
  obtain ⟨s', k1, k2⟩ := copy_tree demo_reach hc (p := [47, 100]) (by decide) hok ⟨9, by decide, h9⟩ (by
    rw [hfiles, hP]
    intro f hf
    simp only [List.mem_cons, List.not_mem_nil, or_false] at hf
    rcases hf with rfl | rfl
    · have hg : ∀ n ∈ [[100], [102]], Good n := by
        intro n hn; simp only [List.mem_cons, List.not_mem_nil, or_false] at hn
        rcases hn with rfl | rfl <;> decide
      exact ⟨by simp, clear_of demo_reach hc hg (by decide +kernel), nothing_of demo_reach hc hg (by decide +kernel)⟩
    · have hg : ∀ n ∈ [[100], [101], [103]], Good n := by
        intro n hn; simp only [List.mem_cons, List.not_mem_nil, or_false] at hn
        rcases hn with rfl | rfl | rfl <;> decide
      exact ⟨by simp, clear_of demo_reach hc hg (by decide +kernel), nothing_of demo_reach hc hg (by decide +kernel)⟩)
  rw [hP, hfiles] at k2
  obtain ⟨nd, hnd, hk, hm⟩ : ∃ nd, demo.fs.inodes rootIno = some nd ∧ nd.isDir ∧ ([97], 9) ∈ nd.ents :=
    ⟨_, rfl, by decide +kernel, by decide +kernel⟩
  obtain ⟨ad, had, hak⟩ : ∃ nd, demo.fs.inodes 9 = some nd ∧ nd.isDir = false := ⟨_, rfl, by decide +kernel⟩
  refine ⟨cg, s', hc, k1, k2.cages, ?_, ?_, ?_, k2.grown.keeps _ _ (.down hnd hk hm (.here _)), ?_⟩
  · obtain ⟨i, a, -, b, -⟩ := k2.files ([[102]], [1, 2]) (by simp)
    exact ⟨i, a, b⟩
  · obtain ⟨i, a, -, b, -⟩ := k2.files ([[101], [103]], [3]) (by simp)
    exact ⟨i, a, b⟩
  · intro i w
    have hg : ∀ n ∈ [[100], [109]], Good n := by
      intro n hn; simp only [List.mem_cons, List.not_mem_nil, or_false] at hn
      rcases hn with rfl | rfl <;> decide
    rcases k2.grown.fresh _ i (fun n hn => Good.proper (hg n hn)) w with g | ⟨f, hf, g⟩
    · exact nothing_of demo_reach hc hg (by decide +kernel) i g
    · simp only [List.mem_cons, List.not_mem_nil, or_false] at hf
      rcases hf with rfl | rfl <;> revert g <;> decide
  · rw [(k2.grown.node 9 ad had hak (fun h => h)).2]; decide +kernel

/-- The hypotheses of `update_differs` and `update_twice` hold of `/a` in `demo` (where a descriptor is open on it), of `update_missing` for
`/d/f`, of `update_empty` for `/f`. -/
example : ∃ cg, demo.cages 0 = some cg ∧
    (∃ s' i', updateInto 0 pA [8] demo = .copied s' ∧ Leads s' cg pA i' ∧ bytes s' i' = [8] ∧ i' ≠ 9 ∧ bytes s' 9 = [1, 2, 3]) ∧
    (∃ s' s'', (updateInto 0 pA [8] demo).run = .done s' ∧ updateInto 0 pA [8] s' = .kept s'') ∧
    (∃ s', updateInto 0 pA [1, 2, 3] demo = .kept s') ∧
    (∃ s' i', updateInto 0 [47, 100, 47, 102] [8] demo = .copied s' ∧ Leads s' cg [47, 100, 47, 102] i' ∧ bytes s' i' = [8]) ∧
    (∃ s' i', updateInto 0 [47, 102] [] demo = .kept s' ∧ Leads s' cg [47, 102] i' ∧ bytes s' i' = []) := by
  obtain ⟨cg, hc, hP, h9, hP1, hP2⟩ : ∃ cg, demo.cages 0 = some cg ∧ cg.path pA = [] ++ [[97]] ∧ cg.fds 9 = none ∧
      cg.path [47, 100, 47, 102] = [[100], [102]] ∧ cg.path [47, 102] = [] ++ [[102]] :=
    ⟨_, rfl, by decide +kernel, by decide +kernel, by decide +kernel, by decide +kernel⟩
  obtain ⟨rd, hrd, hk, hm, hw⟩ : ∃ nd, demo.fs.inodes rootIno = some nd ∧ nd.isDir ∧ ([97], 9) ∈ nd.ents ∧ nd.mode &&& 0o222#32 ≠ 0 :=
    ⟨_, rfl, by decide +kernel, by decide +kernel, by decide +kernel⟩
  obtain ⟨ad, had, hr, href⟩ : ∃ nd, demo.fs.inodes 9 = some nd ∧ Regular nd ∧ 0 < nd.ref :=
    ⟨_, rfl, ⟨by decide +kernel, by decide +kernel⟩, by decide +kernel⟩
  have hl : Leads demo cg pA 9 := by unfold Leads; rw [hP]; exact .down hrd hk hm (.here _)
  have hfd : ∃ fd, fd < 1024 ∧ cg.fds fd = none := ⟨9, by decide, h9⟩
  have hb : bytes demo 9 = [1, 2, 3] := by decide +kernel
  have g97 : ∀ n ∈ [[97]], Good n := by intro n hn; rw [List.mem_singleton.1 hn]; decide
  have g102 : ∀ n ∈ [[102]], Good n := by intro n hn; rw [List.mem_singleton.1 hn]; decide
  have gdf : ∀ n ∈ [[100], [102]], Good n := by
    intro n hn; simp only [List.mem_cons, List.not_mem_nil, or_false] at hn
    rcases hn with rfl | rfl <;> decide
  have hcl : Clear demo (cg.path pA) := by rw [hP]; exact clear_of demo_reach hc g97 (by decide +kernel)
  refine ⟨cg, hc, ?_, ?_, ?_, ?_, ?_⟩
  · obtain ⟨s', i', nd', k1, k2, k3, k4, k5, k6, -, k7, -, -, k8, -⟩ := update_differs demo_reach hc (p := pA) (by decide) hl had hr (content := [8])
      (by rw [hb]; decide) hP (.here _) hrd hw hcl hfd
    obtain ⟨x, y, -⟩ := k8 9 ad had (by simp only [Inode.isDir, hr.1]) (.inl href)
    exact ⟨s', i', k1, k4, k7, Ne.symm x, by rw [y, hb]⟩
  · obtain ⟨s', s'', k1, k2, -⟩ := update_twice demo_reach hc (p := pA) (by decide) hl had hr [8] hP (.here _) hrd hw hcl hfd
    exact ⟨s', s'', k1, k2⟩
  · obtain ⟨s', k1, -⟩ := update_same demo_reach hc (p := pA) (by decide) hl had hr hb hfd
    exact ⟨s', k1⟩
  · obtain ⟨s', i', nd, k1, -, -, k2, -, -, k3, -⟩ := update_missing demo_reach hc (p := [47, 100, 47, 102]) (content := [8]) (by rw [hP1]; decide)
      (by rw [hP1]; exact clear_of demo_reach hc gdf (by decide +kernel))
      (by unfold Leads; rw [hP1]; exact nothing_of demo_reach hc gdf (by decide +kernel)) (by decide) hfd
    exact ⟨s', i', k1, k2, k3⟩
  · obtain ⟨s', i', nd, k1, -, -, k2, -, -, k3, -⟩ := update_empty demo_reach hc (p := [47, 102]) (by decide) hP2 (.here _) hrd hk
      (by unfold Leads; rw [hP2]; exact nothing_of demo_reach hc g102 (by decide +kernel)) hfd
    exact ⟨s', i', k1, k2, k3⟩

/-- Host files: `a` with other content than `/a` in `demo`, `d/f`, which is not there, and a link to nothing. -/
def newTree : Host :=
  .dir (.cons [97] (.file [8]) (.cons [100] (.dir (.cons [102] (.file [9]) .nil)) (.cons [120] .dangling .nil)))

/-- The hypotheses of `update_tree` hold of `newTree` and `/` in `demo`. -/
example : ∃ cg s', demo.cages 0 = some cg ∧ updateTree 0 newTree [47] demo = .done s' ∧
    (∃ i, Walk s'.fs.inodes rootIno [[97]] i ∧ bytes s' i = [8]) ∧
    (∃ i, Walk s'.fs.inodes rootIno [[100], [102]] i ∧ bytes s' i = [9]) := by
  obtain ⟨cg, hc, hP, h9⟩ : ∃ cg, demo.cages 0 = some cg ∧ cg.path [47] = [] ∧ cg.fds 9 = none :=
    ⟨_, rfl, by decide +kernel, by decide +kernel⟩
  obtain ⟨rd, hrd, hk, hm, hw⟩ : ∃ nd, demo.fs.inodes rootIno = some nd ∧ nd.isDir ∧ ([97], 9) ∈ nd.ents ∧ nd.mode &&& 0o222#32 ≠ 0 :=
    ⟨_, rfl, by decide +kernel, by decide +kernel, by decide +kernel⟩
  obtain ⟨ad, had, hr⟩ : ∃ nd, demo.fs.inodes 9 = some nd ∧ Regular nd := ⟨_, rfl, ⟨by decide +kernel, by decide +kernel⟩⟩
  have hok : newTree.Ok := by
    simp only [newTree, Host.Ok, Children.Ok, Children.names]
    refine ⟨?_, by decide, trivial, ?_, by decide, ⟨?_, by simp, trivial, trivial⟩, ?_, by simp, trivial, trivial⟩ <;> decide
  have hpl : newTree.Plain := by simp only [newTree, Host.Plain, Children.Plain, and_self]
  have hat : newTree.at [] = [([[97]], [8]), ([[100], [102]], [9])] := by decide
  have g97 : ∀ n ∈ [[97]], Good n := by intro n hn; rw [List.mem_singleton.1 hn]; decide
  have gdf : ∀ n ∈ [[100], [102]], Good n := by
    intro n hn; simp only [List.mem_cons, List.not_mem_nil, or_false] at hn
    rcases hn with rfl | rfl <;> decide
  obtain ⟨s', k1, k2⟩ := update_tree demo_reach hc (p := [47]) (by decide) hok hpl ⟨9, by decide, h9⟩ (by
    rw [hP, hat]
    intro f hf
    simp only [List.mem_cons, List.not_mem_nil, or_false] at hf
    rcases hf with rfl | rfl
    · exact ⟨by simp, clear_of demo_reach hc g97 (by decide +kernel),
        .inr ⟨9, ad, .down hrd hk hm (.here _), had, hr, .inr ⟨[], [97], rootIno, rd, rfl, .here _, hrd, hw⟩⟩⟩
    · exact ⟨by simp, clear_of demo_reach hc gdf (by decide +kernel),
        .inl ⟨nothing_of demo_reach hc gdf (by decide +kernel), .inl (by decide)⟩⟩)
  rw [hP, hat] at k2
  refine ⟨cg, s', hc, k1, ?_, ?_⟩
  · obtain ⟨i, nd, a, -, -, b⟩ := k2.files ([[97]], [8]) (by simp)
    exact ⟨i, a, b⟩
  · obtain ⟨i, nd, a, -, -, b⟩ := k2.files ([[100], [102]], [9]) (by simp)
    exact ⟨i, a, b⟩

/-! ## What the tools get wrong -/

/-- The end of a copy: what it reports, and the state. -/
def report : Res → Option (String × State)
  | .copied s => some ("copied", s)
  | .kept s => some ("kept", s)
  | .stopped s => some ("stopped", s)
  | .abort => none

/-- C75 (copying to a directory of the Lind file system).  A file copied to a path that is a directory (as `cp file /dev` would be meant)
ends the whole program by a failed assertion; an empty one is reported as copied, although no file with its content is there. -/
theorem copy_to_directory_violated : Reach demo ∧ (report (cpInto 0 true [47, 100, 101, 118] [1] demo)).isNone ∧
    (report (cpInto 0 true [47, 100, 101, 118] [] demo)).map (fun r => (r.1, (atPath r.2 [[100, 101, 118]]).map (·.isDir))) =
      some ("copied", some true) :=
  ⟨demo_reach, by decide +kernel, by decide +kernel⟩

/-- C75 (copying to the root).  A file copied to `/` ends the whole program: the path has no parent. -/
theorem copy_to_root_violated (content : List UInt8) : Reach demo ∧ (report (cpInto 0 true [47] content demo)).isNone := by
  refine ⟨demo_reach, ?_⟩
  obtain ⟨cg, hc, hP⟩ : ∃ cg, demo.cages 0 = some cg ∧ names (normpath cg.cwd [47]) = [] := ⟨_, rfl, by decide +kernel⟩
  simp only [cpInto, hc, if_pos hP]; rfl

/-- C75 (copying to a device).  A file copied to `/dev/null` is reported as copied; nothing holds its content. -/
theorem copy_to_device_violated : Reach demo ∧
    (report (cpInto 0 true [47, 100, 101, 118, 47, 110, 117, 108, 108] [1, 2] demo)).map
      (fun r => (r.1, (atPath r.2 [[100, 101, 118], [110, 117, 108, 108]]).map (fun nd => (decide (nd.kind = .file), nd.size)))) =
      some ("copied", some (false, 0)) :=
  ⟨demo_reach, by decide +kernel⟩

/-- C75 (empty directories).  An empty directory of the host is not copied: nothing is done, and nothing is reported. -/
theorem copy_empty_directory_violated (c : Nat) (create : Bool) (p : Str) (s : State) : cpTree c create (.dir .nil) p s = .done s := by
  simp only [cpTree, cpChildren]

/-- C75 (updating an empty file).  An empty file of the host whose directory is not there yet ends the whole program: the open that creates
it for the comparison fails, and its error number is used as a descriptor. -/
theorem update_empty_violated : Reach demo ∧ (report (updateInto 0 [47, 100, 47, 102] [] demo)).isNone :=
  ⟨demo_reach, by decide +kernel⟩

/-- C75 (updating a tree with a special file).  A FIFO or a socket anywhere in the directory of the host ends the whole program, where the
copy leaves it out. -/
theorem update_special_violated (c : Nat) (p : Str) (s : State) : updateTree c .special p s = .abort ∧ cpTree c true .special p s = .done s := by
  simp only [updateTree, cpTree, and_self]

end Verif.HostCopy
