import Verif.FsToolsProps

/-! # Deleting a tree: concrete cases, and the trees that are not deleted (property C66) -/

namespace Verif.FsTools

open Verif.Path Verif.Fs Verif.Kernel

/-! ## Checking `Deletable` on a concrete state -/

/-- Follows the tree from inode `i` down `h` levels. -/
def check (ino : Nat → Option Inode) : Nat → Nat → Bool
  | h, i =>
    match ino i with
    | none => false
    | some nd =>
      (decide (nd.mode &&& 0o170000#32 = 0o40000#32) == decide (nd.kind = .dir)) &&
      (if nd.kind = .dir then
        match h with
        | 0 => false
        | h + 1 => decide (∀ e ∈ nd.ents, (0 : UInt8) ∉ e.1 ∧ e.1.length < 60000 ∧ e.2 < 2 ^ 64) &&
            decide ((nd.ents.map (fun e => Getdents.recLen e.1)).sum ≤ 65536) &&
            nd.ents.all (fun e => isDots e.1 || check ino h e.2)
       else true)

theorem check_sound {ino : Nat → Option Inode} {i k : Nat} {r : List Name} (w : Walk ino i r k) :
    ∀ h, check ino h i = true → (∀ m ∈ r, isDots m = false) → ∀ nd, ino k = some nd →
      (nd.mode &&& 0o170000#32 = 0o40000#32 ↔ nd.kind = .dir) ∧
      (nd.kind = .dir → Getdents.Sane nd.ents ∧ (nd.ents.map (fun e => Getdents.recLen e.1)).sum ≤ 65536 ∧ r.length < h) := by
  induction w with
  | here d =>
    intro h hc _ nd hk
    rw [check, hk] at hc
    simp only [Bool.and_eq_true, beq_iff_eq, decide_eq_decide] at hc
    refine ⟨hc.1, fun hd => ?_⟩
    rw [if_pos hd] at hc
    cases h with
    | zero => exact absurd hc.2 (by simp)
    | succ h =>
      simp only [Bool.and_eq_true, decide_eq_true_eq] at hc
      exact ⟨hc.2.1.1, hc.2.1.2, by simp⟩
  | down a b m w ih =>
    intro h hc hr nd hk
    rename_i x
    rw [check, a] at hc
    simp only [Bool.and_eq_true] at hc
    rw [if_pos (isDir_iff.1 b)] at hc
    cases h with
    | zero => exact absurd hc.2 (by simp)
    | succ h =>
      simp only [Bool.and_eq_true, List.all_eq_true, Bool.or_eq_true] at hc
      rcases hc.2.2 _ m with hb | hb
      · have := hr _ (List.mem_cons_self)
        simp only at hb
        rw [this] at hb; cases hb
      · obtain ⟨c1, c2⟩ := ih h hb (fun m hm => hr m (List.mem_cons_of_mem _ hm)) nd hk
        refine ⟨c1, fun hd => ?_⟩
        obtain ⟨d1, d2, d3⟩ := c2 hd
        exact ⟨d1, d2, by simp only [List.length_cons]; omega⟩

theorem deletable_of {s : State} {P : List Name} {i h : Nat} (hT : Tree s.fs.inodes s.fs.next)
    (w : Walk s.fs.inodes rootIno P i) (hc : check s.fs.inodes h i = true) : Deletable s P h := by
  have key : ∀ q k, Plainly q → P <+: q → Walk s.fs.inodes rootIno q k → ∃ r, q = P ++ r ∧ Walk s.fs.inodes i r k ∧
      ∀ m ∈ r, isDots m = false := by
    rintro q k gq ⟨r, rfl⟩ wq
    obtain ⟨e, a, b⟩ := Walk_cut P wq
    have := walk_fun hT a w; subst this
    exact ⟨r, rfl, b, fun m hm => gq m (by simp [hm])⟩
  constructor
  · intro q k nd gq hp wq hk
    obtain ⟨r, rfl, b, g⟩ := key q k gq hp wq
    exact (check_sound b h hc g nd hk).1
  · intro q k nd gq hp wq hk hd
    obtain ⟨r, rfl, b, g⟩ := key q k gq hp wq
    obtain ⟨d1, d2, d3⟩ := (check_sound b h hc g nd hk).2 hd
    exact ⟨d1, d2, by simp only [List.length_append]; omega⟩

theorem deletable_empty {s : State} {P : List Name} {h : Nat} (hno : ∀ q k, Plainly q → P <+: q → ¬ Walk s.fs.inodes rootIno q k) :
    Deletable s P h :=
  ⟨fun q k _ a b c => absurd c (hno q k a b), fun q k _ a b c => absurd c (hno q k a b)⟩

/-! ## A tree that is deleted -/

/-- `/d` -/
def qD : Str := [47, 100]
/-- `/d/f` -/
def qF : Str := [47, 100, 47, 102]
/-- `/d/e` -/
def qE : Str := [47, 100, 47, 101]
/-- `/d/e/g` -/
def qG : Str := [47, 100, 47, 101, 47, 103]
/-- `/k` -/
def qK : Str := [47, 107]

/-- A directory with a file that has a second name outside, and a directory without write permission with an open file in it. -/
def planted : State := run init
  [(0, .mkdir qD 0o755#32), (0, .openP qF 0o102#32 0o644#32), (0, .write 3 [104, 105]), (0, .close 3), (0, .link qF qK),
   (0, .mkdir qE 0o777#32), (0, .openP qG 0o102#32 0o600#32), (0, .write 3 [120]), (0, .chmod qE 0o555#32)]

theorem planted_reach : Reach planted := Reach.init.run _ (by decide +kernel)

theorem planted_d : ∃ cg rd, planted.cages 0 = some cg ∧ cg.path qD = [] ++ [[100]] ∧ 2 ≤ free cg.fds ∧
    planted.fs.inodes rootIno = some rd ∧ rd.mode &&& 0o222#32 ≠ 0#32 ∧ Walk planted.fs.inodes rootIno [[100]] 9 := by
  refine ⟨_, _, rfl, by decide +kernel, by decide +kernel, rfl, by decide +kernel, ?_⟩
  obtain ⟨nd, hnd, hk, hm⟩ : ∃ nd, planted.fs.inodes rootIno = some nd ∧ nd.isDir ∧ ([100], 9) ∈ nd.ents :=
    ⟨_, rfl, by decide +kernel, by decide +kernel⟩
  exact .down hnd hk hm (.here _)

/-- The hypotheses of `deltree_exact_partial` hold of `/d` in `planted`; so the tree goes, and what `/k` names and what is open stays. -/
example : ∃ cg s', planted.cages 0 = some cg ∧ deltree 0 4 planted qD = .done s' ∧ s'.cages = planted.cages ∧
    (∀ j, ¬ Leads s' cg qD j) ∧ Walk s'.fs.inodes rootIno [[107]] 10 ∧ bytes s' 10 = [104, 105] ∧ bytes s' 12 = [120] := by
  obtain ⟨cg, rd, hc, hP, hf, hrd, hw, w⟩ := planted_d
  have T := planted_reach.inv.fs.tree
  obtain ⟨s', h1, hR', h2, h3, h4, -⟩ := deltree_exact_partial planted_reach hc (p := qD) (by decide) (ps := []) (n := [100]) (i := 9)
    (h := 2) hP (by unfold Leads; rw [hP]; exact w) ⟨_, rfl, by decide +kernel⟩ (.here _) hrd hw
    (deletable_of T w (by decide +kernel)) hf (k := 4) (by omega)
  have wk : Walk planted.fs.inodes rootIno [[107]] 10 := by
    obtain ⟨nd, hnd, hk, hm⟩ : ∃ nd, planted.fs.inodes rootIno = some nd ∧ nd.isDir ∧ ([107], 10) ∈ nd.ents :=
      ⟨_, rfl, by decide +kernel, by decide +kernel⟩
    exact .down hnd hk hm (.here _)
  obtain ⟨f, hf10, k10⟩ : ∃ nd, planted.fs.inodes 10 = some nd ∧ nd.kind ≠ .dir := ⟨_, rfl, by decide +kernel⟩
  obtain ⟨g, hg12, k12, r12⟩ : ∃ nd, planted.fs.inodes 12 = some nd ∧ nd.kind ≠ .dir ∧ 0 < nd.ref :=
    ⟨_, rfl, by decide +kernel, by decide +kernel⟩
  have hng : ¬ ([] : List Name) ++ [[100]] <+: [[107]] := by decide
  have pl : Plainly [[107]] := by intro n hn; revert n; decide
  obtain ⟨l, -, b10⟩ := h3.files 10 f hf10 k10 (.inr ⟨[[107]], pl, hng, wk⟩)
  obtain ⟨l', -, b12⟩ := h3.files 12 g hg12 k12 (.inl r12)
  refine ⟨cg, s', hc, h1, h2, h4, (h3.paths _ 10 pl).2 ⟨wk, hng⟩, ?_, ?_⟩
  · rw [b10]; decide +kernel
  · rw [b12]; decide +kernel

/-- `/tmp/a` -/
def qA : Str := [47, 116, 109, 112, 47, 97]
/-- `/tmp/a/b` -/
def qB : Str := [47, 116, 109, 112, 47, 97, 47, 98]

/-- A `/tmp` with something in it. -/
def used : State := run init [(0, .mkdir qA 0o700#32), (0, .openP qB 0o102#32 0o644#32), (0, .close 3)]

/-- The hypotheses of `cleartmp_empties_partial` hold. -/
example : ∃ cg s', used.cages 0 = some cg ∧ cleartmp false 3 used = .done s' ∧ Leads s' cg tmp 8 ∧ Empty s' 8 ∧ ¬ Empty used 8 := by
  have hR : Reach used := Reach.init.run _ (by decide +kernel)
  obtain ⟨cg, hc, hP, hf⟩ : ∃ cg, used.cages 0 = some cg ∧ cg.path tmp = [[116, 109, 112]] ∧ 2 ≤ free cg.fds :=
    ⟨_, rfl, by decide +kernel, by decide +kernel⟩
  obtain ⟨rd, hrd, hrk, hrm⟩ : ∃ nd, used.fs.inodes rootIno = some nd ∧ nd.isDir ∧ ([116, 109, 112], 8) ∈ nd.ents :=
    ⟨_, rfl, by decide +kernel, by decide +kernel⟩
  obtain ⟨nd, hnd, hk, hw, hs, hsum, he⟩ : ∃ nd, used.fs.inodes 8 = some nd ∧ nd.kind = .dir ∧ nd.mode &&& 0o222#32 ≠ 0#32 ∧
      (∀ e ∈ nd.ents, (0 : UInt8) ∉ e.1 ∧ e.1.length < 60000 ∧ e.2 < 2 ^ 64) ∧
      (nd.ents.map (fun e => Getdents.recLen e.1)).sum ≤ 65536 ∧ nd.ents = [([97], 9), ([46], 8), ([46, 46], 1)] :=
    ⟨_, rfl, by decide +kernel, by decide +kernel, by decide +kernel, by decide +kernel, by decide +kernel⟩
  have T := hR.inv.fs.tree
  have w : Walk used.fs.inodes rootIno [[116, 109, 112]] 8 := .down hrd hrk hrm (.here _)
  have wa : Walk used.fs.inodes rootIno [[116, 109, 112], [97]] 9 := by
    refine .down hrd hrk hrm (.down hnd (isDir_iff.2 hk) ?_ (.here _))
    rw [he]; decide
  obtain ⟨s', nd', h1, -, -, -, h2, h3, -⟩ := cleartmp_empties_partial hR hc (i := 8) (h := 1) (by unfold Leads; rw [hP]; exact w) hnd hk hw hs
    hsum (by
      intro n
      by_cases hn : n = [97]
      · subst hn; exact deletable_of T wa (by decide +kernel)
      · refine deletable_empty ?_
        rintro q k gq ⟨r, rfl⟩ wq
        obtain ⟨e, a, b⟩ := Walk_cut [[116, 109, 112], n] wq
        obtain ⟨e', a', b'⟩ := Walk_cut [[116, 109, 112]] (b := [n]) a
        have := walk_fun T a' w; subst this
        cases b' with
        | down y1 y2 y3 y4 =>
          rw [hnd] at y1; cases y1
          rw [he] at y3
          have hd := gq n (by simp)
          simp only [List.mem_cons, Prod.mk.injEq, List.not_mem_nil, or_false] at y3
          rcases y3 with ⟨rfl, -⟩ | ⟨rfl, -⟩ | ⟨rfl, -⟩
          · exact hn rfl
          · exact absurd hd (by decide)
          · exact absurd hd (by decide))
    hf false (k := 3) (by omega)
  refine ⟨cg, s', hc, h1, h2, h3, ?_⟩
  intro hem
  have := hem [97] 9 ((entry_iff hnd).2 (by rw [he]; decide))
  revert this; decide

/-- The hypotheses of `cleartmp_missing` hold after `/tmp` is removed. -/
example : let s := run init [(0, .rmdir tmp)]
    Reach s ∧ ∃ cg, s.cages 0 = some cg ∧ ∀ i, ¬ Leads s cg tmp i := by
  have hR : Reach (run init [(0, .rmdir tmp)]) := Reach.init.run _ (by decide +kernel)
  obtain ⟨cg, hc⟩ : ∃ cg, (run init [(0, .rmdir tmp)]).cages 0 = some cg := ⟨_, rfl⟩
  exact ⟨hR, cg, hc, (lookup_exact hR hc tmp).2.2 (by decide +kernel)⟩

/-! ## Trees that are not deleted -/

/-- C66, violated: a directory made with type bits in its mode (`mkdir("/d", 0100777)` is accepted) is taken for a file.  Deleting the
tree unlinks it, which is refused, and returns without a word; the directory is still there, with everything in it. -/
theorem odd_mode_violated : let s := run init [(0, .mkdir qD 0o100777#32), (0, .mkdir qE 0o777#32)]
    Reach s ∧ ∃ s', (∀ k, deltree 0 (k + 1) s qD = .done s') ∧ (step s' 0 (.stat qD)).2.ret = .ok 0 ∧
      (step s' 0 (.stat qE)).2.ret = .ok 0 := by
  intro s
  have hR : Reach s := Reach.init.run _ (by decide +kernel)
  obtain ⟨cg, hc⟩ : ∃ cg, s.cages 0 = some cg := ⟨_, rfl⟩
  obtain ⟨nd, hnd, hm⟩ : ∃ nd, s.fs.inodes 9 = some nd ∧ nd.mode &&& 0o170000#32 ≠ 0o40000#32 := ⟨_, rfl, by decide +kernel⟩
  have hl : Leads s cg qD 9 := ((lookup_exact hR hc qD).1 9).2 ⟨_, rfl, by decide +kernel⟩
  refine ⟨hR, (step s 0 (.unlink qD)).1, ?_, by decide +kernel, by decide +kernel⟩
  intro k
  rw [(deltree_leaf hR hc k).1 9 nd hl hnd hm, call, if_neg (by decide +kernel)]

/-- C66, violated: without a free descriptor, deleting any directory tree aborts the process (after making the directory writable). -/
theorem no_descriptor {s : State} (hR : Reach s) {c : Nat} {cg : Cage} (hc : s.cages c = some cg) {p : Str} {i : Nat} {nd : Inode}
    (hi : Leads s cg p i) (hnd : s.fs.inodes i = some nd) (hd : nd.kind = .dir) (hm : nd.mode &&& 0o170000#32 = 0o40000#32)
    (hfull : ∀ fd, fd < 1024 → cg.fds fd ≠ none) (k : Nat) : deltree c (k + 1) s p = .abort := by
  obtain ⟨par, hr, -⟩ := hR.inv.walk_found hc hi
  have hstat : (step s c (.stat p)).2 = { ret := .ok 0, stat := some (statOf i nd) } := by
    simp only [step, hc, Fs.stat, hr, hnd]
  have hm' : modeIsDir (statOf i nd).mode = true := by
    show (nd.mode &&& sFileType == sIFDIR) = true
    exact beq_iff_eq.2 hm
  obtain ⟨s1, a1, a2, -⟩ := chmod_dir hR hc hi hnd (isDir_iff.2 hd)
  have hc1 : s1.cages c = some cg := by rw [a2]; exact hc
  have hn : nextFd cg.fds 0 = none := by
    cases e : nextFd cg.fds 0 with
    | none => rfl
    | some fd =>
      obtain ⟨-, h1, h2, -⟩ := nextFd_some e
      exact absurd h2 (hfull fd h1)
  rw [deltree_succ]
  simp only [hstat, hm', if_true, a1]
  simp only [visit, step, hc1, openSys, hn]
  by_cases hp : p = []
  · simp only [hp, if_true, Out.r]
  · simp only [hp, if_false, Out.r]

/-- C66, violated: a concrete case of `no_descriptor`. -/
theorem no_descriptor_violated : ∃ s, Reach s ∧ ∀ k, deltree 0 (k + 1) s tmp = .abort := by
  obtain ⟨hR, cg, hc, hfull, -, -, -⟩ := dups_table 1021 (by omega)
  have hfs : ∀ k, k ≤ 1021 → (dups k).fs = init.fs := by
    intro k
    induction k with
    | zero => intro _; rfl
    | succ k ih =>
      intro hk
      obtain ⟨-, cg', hc', h1, h2, -⟩ := dups_table k (by omega)
      obtain ⟨n, f, hs⟩ := h1 1 (by omega)
      have hn : nextFd cg'.fds 0 = some (3 + k) :=
        nextFd_eq (by omega) (h2 _ (Nat.le_refl _)) (fun j hj => by obtain ⟨n, f, e⟩ := h1 j hj; rw [e]; simp)
      rw [dups_succ]
      have hg : getFd cg'.fds 1 = some (some (.stream n f)) := by
        have := getFd_nat (t := cg'.fds) (fd := 1) (by decide)
        rw [hs] at this; exact this
      simp only [step, hc', dup, if_neg (show ¬ (1 : Int) = 0 by decide), hg, dupFrom, hn, Desc.isEpoll, Bool.false_eq_true, if_false,
        State.putCopy, State.bump, setFd_fs]
      exact ih (by omega)
  have hfs := hfs 1021 (Nat.le_refl _)
  refine ⟨dups 1021, hR, fun k => ?_⟩
  have hP : cg.path tmp = [[116, 109, 112]] := by
    rw [Cage.path, normpath_absolute cg.cwd [slash] tmp (by decide)]; decide +kernel
  obtain ⟨rd, hrd, hrk, hrm⟩ : ∃ nd, init.fs.inodes rootIno = some nd ∧ nd.isDir ∧ ([116, 109, 112], 8) ∈ nd.ents :=
    ⟨_, rfl, by decide +kernel, by decide +kernel⟩
  obtain ⟨nd, hnd, hk, hm⟩ : ∃ nd, init.fs.inodes 8 = some nd ∧ nd.kind = .dir ∧ nd.mode &&& 0o170000#32 = 0o40000#32 :=
    ⟨_, rfl, by decide +kernel, by decide +kernel⟩
  refine no_descriptor hR hc (i := 8) (nd := nd) ?_ (by rw [hfs]; exact hnd) hk hm ?_ k
  · unfold Leads; rw [hP, hfs]; exact .down hrd hrk hrm (.here _)
  · intro fd hfd
    obtain ⟨n, f, e⟩ := hfull fd (by omega)
    rw [e]; simp

end Verif.FsTools
