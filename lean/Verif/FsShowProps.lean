import Verif.FsShowSpec
import Verif.FsToolsWitness

/-! # What `ls` and `tree` print (property C104) -/

namespace Verif.FsShow

open Verif.Path Verif.Fs Verif.Kernel Verif.FsTools

theorem stat_at {s : State} (hR : Reach s) {c : Nat} {cg : Cage} (hc : s.cages c = some cg) {p : Str} {i : Nat} {nd : Inode}
    (hi : Leads s cg p i) (hnd : s.fs.inodes i = some nd) : (step s c (.stat p)).2 = { ret := .ok 0, stat := some (statOf i nd) } := by
  obtain ⟨par, hr, -⟩ := hR.inv.walk_found hc hi
  simp only [step, hc, Fs.stat, hr, hnd]

/-- C104.  `tree` on a directory prints the path of everything below it, each once, indented by its depth, every line followed by what is below
it; and it leaves every inode, the stored bytes and all descriptors as they were.  Directories may be larger than the buffer.  Partial: the tree
must be `Shown` and the cage must have as many free descriptors as the tree has levels. -/
theorem tree_exact_partial {s : State} (hR : Reach s) {c : Nat} {cg : Cage} (hc : s.cages c = some cg) {p : Str} (hp : p ≠ []) {i h N : Nat}
    (hi : Leads s cg p i) (hd : IsDir s i) (hsh : Shown s (cg.path p) h N) (hfree : h ≤ free cg.fds) (m : Nat) {k : Nat} (hk : h + N < k) :
    ∃ s' L, tree c k s p m = .done s' L ∧ Listing s i p m L ∧
      Reach s' ∧ s'.fs.inodes = s.fs.inodes ∧ s'.fs.disk = s.fs.disk ∧ s'.cages = s.cages := by
  obtain ⟨nd, hnd, hk'⟩ := hd
  obtain ⟨s', L, h1, h2, h3, h4⟩ := tree_spec hR c N h k hk s cg p i m nd _ hR (Refs.refl s) hc hp rfl hi hnd (isDir_iff.2 hk') hsh hfree
  exact ⟨s', L, h1, h4, h2, h3.inodes, h3.disk, h3.cages⟩

/-- C104.  Every printed path leads to what it was printed for, and every path below the directory is one of the printed ones. -/
theorem tree_paths {s : State} (hR : Reach s) {c : Nat} {cg : Cage} (hc : s.cages c = some cg) {p : Str} (hp : p ≠ []) {i m : Nat}
    (hi : Leads s cg p i) {L : List Line} (hL : Listing s i p m L) :
    (∀ l ∈ L, ∃ j, Leads s cg l.path j) ∧
    ∀ q j, Leads s cg q j → cg.path p <+: cg.path q → cg.path q ≠ cg.path p →
      ∃ l ∈ L, cg.path l.path = cg.path q ∧ l.depth + 1 + (cg.path p).length = m + (cg.path q).length := by
  have T := hR.inv.fs.tree
  have hcw := (hR.inv.cage c cg hc).2.2
  constructor
  · intro l hl
    obtain ⟨n, ns, k, g, w, rfl⟩ := (hL.all l).1 hl
    refine ⟨k, ?_⟩
    unfold Leads
    rw [under_path hcw _ hp (walk_good T w (dots_proper.1 g))]
    exact Walk.append hi w
  · rintro q j hq ⟨r, hr⟩ hne
    have hq' := hq
    unfold Leads at hq'
    rw [← hr] at hq'
    obtain ⟨e, a, b⟩ := Walk_cut _ hq'
    have := walk_fun T a hi; subst this
    have gr : ∀ x ∈ r, Good x := fun x hx => hR.inv.gp hc q x (by rw [← hr]; simp [hx])
    cases r with
    | nil => simp at hr; exact absurd hr.symm hne
    | cons n ns =>
      refine ⟨⟨m + ns.length, under p (n :: ns)⟩, (hL.all _).2 ⟨n, ns, j, dots_proper.2 (fun x hx => Good.proper (gr x hx)), b, rfl⟩, ?_, ?_⟩
      · rw [under_path hcw _ hp gr, hr]
      · rw [← hr]; simp only [List.length_append, List.length_cons]; omega

/-- C104.  `tree` on something that is not a directory, or on a path that leads nowhere, prints nothing and changes nothing. -/
theorem tree_other {s : State} (hR : Reach s) {c : Nat} {cg : Cage} (hc : s.cages c = some cg) {p : Str} (m k : Nat) :
    (∀ i nd, Leads s cg p i → s.fs.inodes i = some nd → nd.mode &&& 0o170000#32 ≠ 0o40000#32 → tree c (k + 1) s p m = .done s []) ∧
    ((∀ i, ¬ Leads s cg p i) → tree c (k + 1) s p m = .done s []) := by
  constructor
  · intro i nd hi hnd hm
    have hf : modeIsDir (statOf i nd).mode = false := by
      show (nd.mode &&& sFileType == sIFDIR) = false
      exact beq_eq_false_iff_ne.2 hm
    simp only [tree, stat_at hR hc hi hnd, hf, Bool.false_eq_true, if_false]
  · intro hno
    simp only [tree, (lookup_exact hR hc p).2.1 hno]

/-- C104.  `ls` on a directory prints the path of every entry, each once, with a slash behind those that are directories, and changes
nothing.  Partial: the type bits of the modes must tell the truth, names must be shorter than 60000 bytes, and one descriptor must be free. -/
theorem ls_exact_partial {s : State} (hR : Reach s) {c : Nat} {cg : Cage} (hc : s.cages c = some cg) {p : Str} (hp : p ≠ []) {i : Nat} {nd : Inode}
    (hi : Leads s cg p i) (hnd : s.fs.inodes i = some nd) (hd : nd.kind = .dir) (hmode : nd.mode &&& 0o170000#32 = 0o40000#32)
    (hs : ∀ e ∈ nd.ents, (0 : UInt8) ∉ e.1 ∧ e.1.length < 60000 ∧ e.2 < 2 ^ 64)
    (hkind : ∀ e ∈ nd.ents, ∀ kd, s.fs.inodes e.2 = some kd → (kd.mode &&& 0o170000#32 = 0o40000#32 ↔ kd.kind = .dir))
    (hfree : ∃ fd, fd < 1024 ∧ cg.fds fd = none) {k : Nat} (hk : nd.ents.length < k) :
    ∃ s' L, ls c k s p = .done s' L ∧ L.Nodup ∧
      (∀ x, x ∈ L ↔ ∃ n j kd, isDots n = false ∧ (n, j) ∈ nd.ents ∧ s.fs.inodes j = some kd ∧ x = ⟨join p n, decide (kd.kind = .dir)⟩) ∧
      Reach s' ∧ s'.fs.inodes = s.fs.inodes ∧ s'.fs.disk = s.fs.disk ∧ s'.cages = s.cages := by
  have T := hR.inv.fs.tree
  have hdir := isDir_iff.2 hd
  have hcw := (hR.inv.cage c cg hc).2.2
  have hfr : 0 + 1 ≤ free cg.fds := by
    obtain ⟨fd, h1, h2⟩ := hfree
    exact List.countP_pos_iff.2 ⟨fd, List.mem_range.2 h1, by simp [h2]⟩
  let R : Name → List Item → Prop := fun n o => ∃ j kd, (n, j) ∈ nd.ents ∧ s.fs.inodes j = some kd ∧ o = [⟨join p n, kd.isDir⟩]
  have hsh : Shows (fun s q d => Run.done s [(⟨q, d⟩ : Item)]) c p s nd 0 cg.cwd R := by
    intro s' cg' n j kd hR' _ _ _ _ hj _ hkd
    exact ⟨s', [⟨child p n, kd.isDir⟩], rfl, hR', ⟨rfl, rfl, rfl⟩, j, kd, hj, hkd, rfl⟩
  obtain ⟨s', o, v1, v2, v3, v4⟩ := visit_shows hsh hR (Refs.refl s) hc hp rfl hfr hi hnd hdir
    (fun n j kd hj _ hkd => mode_kind (hkind (n, j) hj kd hkd)) hs hk
  have nodup := T.nodup hnd
  have hM : ∀ n o, Proper n → R n o → ∀ x, x ∈ o ↔ ∃ j kd, Good n ∧ (n, j) ∈ nd.ents ∧ s.fs.inodes j = some kd ∧ x = ⟨join p n, kd.isDir⟩ := by
    rintro n o hn ⟨j, kd, hj, hkd, rfl⟩ x
    rw [List.mem_singleton]
    constructor
    · rintro rfl; exact ⟨j, kd, (T.ent hnd hj hn).1, hj, hkd, rfl⟩
    · rintro ⟨j', kd', -, hj', hkd', rfl⟩
      have := (entGet_iff nodup).2 hj'
      rw [(entGet_iff nodup).2 hj] at this; cases this
      rw [hkd] at hkd'; cases hkd'; rfl
  have hdec : ∀ kd : Inode, decide (kd.kind = .dir) = kd.isDir := by
    intro kd
    cases hb : kd.isDir with
    | true => exact decide_eq_true (isDir_iff.1 hb)
    | false => exact decide_eq_false (fun e => by rw [isDir_iff.2 e] at hb; cases hb)
  refine ⟨s', o, ?_, ?_, ?_, v2, v3.inodes, v3.disk, v3.cages⟩
  · have hmd : modeIsDir (statOf i nd).mode = true := by
      show (nd.mode &&& sFileType == sIFDIR) = true
      exact beq_iff_eq.2 hmode
    simp only [ls, stat_at hR hc hi hnd, hmd, if_true]
    exact v1
  · refine outs_nodup v4 hM ?_ ?_ nodup
    · rintro n o ⟨j, kd, -, -, rfl⟩; simp
    · rintro n n' x ⟨j, kd, g, -, -, rfl⟩ ⟨j', kd', g', -, -, e⟩
      simp only [Item.mk.injEq] at e
      have := under_inj hcw hp (a := [n]) (b := [n']) (by simpa using g) (by simpa using g') e.1
      exact (List.cons.inj this).1
  · intro x
    rw [outs_mem v4 hM x]
    constructor
    · rintro ⟨n, -, hn, j, kd, -, a, b, rfl⟩; exact ⟨n, j, kd, (isDots_iff n).2 hn, a, b, by rw [hdec]⟩
    · rintro ⟨n, j, kd, hn, a, b, rfl⟩
      exact ⟨n, List.mem_map.2 ⟨_, a, rfl⟩, (isDots_iff n).1 hn, j, kd, (T.ent hnd a ((isDots_iff n).1 hn)).1, a, b, by rw [hdec]⟩

/-- C104.  `ls` on something that is not a directory prints its path; on a path that leads nowhere it prints nothing.  Nothing changes. -/
theorem ls_other {s : State} (hR : Reach s) {c : Nat} {cg : Cage} (hc : s.cages c = some cg) {p : Str} (k : Nat) :
    (∀ i nd, Leads s cg p i → s.fs.inodes i = some nd → nd.mode &&& 0o170000#32 ≠ 0o40000#32 → ls c k s p = .done s [⟨p, false⟩]) ∧
    ((∀ i, ¬ Leads s cg p i) → ls c k s p = .done s []) := by
  constructor
  · intro i nd hi hnd hm
    have hf : modeIsDir (statOf i nd).mode = false := by
      show (nd.mode &&& sFileType == sIFDIR) = false
      exact beq_eq_false_iff_ne.2 hm
    simp only [ls, stat_at hR hc hi hnd, hf, Bool.false_eq_true, if_false]
  · intro hno
    simp only [ls, (lookup_exact hR hc p).2.1 hno]

/-! ## Concrete cases -/

def Run.out {α : Type} : Run α → Option (List α)
  | .done _ o => some o
  | _ => none

theorem shown_of {s : State} {P : List Name} {i h : Nat} (hT : Tree s.fs.inodes s.fs.next) (w : Walk s.fs.inodes rootIno P i)
    (hc : check s.fs.inodes h i = true) : Shown s P h 65536 := by
  have d := deletable_of hT w hc
  refine ⟨d.kind, ?_⟩
  intro q k nd gq hp wq hk hd
  obtain ⟨a, b, e⟩ := d.dirs q k nd gq hp wq hk hd
  refine ⟨a, ?_, e⟩
  have : nd.ents.length ≤ (nd.ents.map (fun e => Getdents.recLen e.1)).sum := by
    clear b a hk
    induction nd.ents with
    | nil => simp
    | cons x xs ih =>
      have : 8 ≤ Getdents.recLen x.1 := by unfold Getdents.recLen Getdents.clipped; omega
      simp only [List.length_cons, List.map_cons, List.sum_cons]; omega
  omega

/-- The hypotheses of `tree_exact_partial` hold of `/d` in `planted`, which has a file and a directory with an open file. -/
example : ∃ s' L, tree 0 65539 planted qD 0 = .done s' L ∧ Listing planted 9 qD 0 L ∧ s'.cages = planted.cages := by
  obtain ⟨cg, rd, hc, hP, hf, -, -, w⟩ := planted_d
  have T := planted_reach.inv.fs.tree
  obtain ⟨s', L, h1, h2, -, -, -, h3⟩ := tree_exact_partial planted_reach hc (p := qD) (by decide) (i := 9) (h := 2) (N := 65536)
    (by unfold Leads; rw [hP]; exact w) ⟨_, rfl, by decide +kernel⟩ (by rw [hP]; exact shown_of T w (by decide +kernel)) hf 0 (k := 65539) (by omega)
  exact ⟨s', L, h1, h2, h3⟩

/-- What is printed there, and by `ls`. -/
example : (tree 0 5 planted qD 0).out = some [⟨0, qE⟩, ⟨1, qG⟩, ⟨0, qF⟩] ∧
    ((tree 0 5 planted qD 0).out.map fun L => L.map Line.text) = some
      [[124, 45, 45, 45] ++ qE ++ [10], [124, 32, 32, 32, 124, 45, 45, 45] ++ qG ++ [10], [124, 45, 45, 45] ++ qF ++ [10]] ∧
    (ls 0 5 planted qD).out = some [⟨qE, true⟩, ⟨qF, false⟩] ∧ (ls 0 5 planted qF).out = some [⟨qF, false⟩] := by
  refine ⟨?_, ?_, ?_, ?_⟩ <;> decide +kernel

/-- The hypotheses of `ls_exact_partial` hold there. -/
example : ∃ cg nd, planted.cages 0 = some cg ∧ Leads planted cg qD 9 ∧ planted.fs.inodes 9 = some nd ∧ nd.kind = .dir ∧
    nd.mode &&& 0o170000#32 = 0o40000#32 ∧ (∀ e ∈ nd.ents, (0 : UInt8) ∉ e.1 ∧ e.1.length < 60000 ∧ e.2 < 2 ^ 64) ∧
    (∀ e ∈ nd.ents, ∀ kd, planted.fs.inodes e.2 = some kd → (kd.mode &&& 0o170000#32 = 0o40000#32 ↔ kd.kind = .dir)) ∧
    cg.fds 4 = none ∧ nd.ents.length < 5 := by
  obtain ⟨cg, rd, hc, hP, hf, -, -, w⟩ := planted_d
  obtain ⟨nd, hnd, h1, h2, h3, h4, h5⟩ : ∃ nd, planted.fs.inodes 9 = some nd ∧ nd.kind = .dir ∧ nd.mode &&& 0o170000#32 = 0o40000#32 ∧
      (∀ e ∈ nd.ents, (0 : UInt8) ∉ e.1 ∧ e.1.length < 60000 ∧ e.2 < 2 ^ 64) ∧
      (∀ e ∈ nd.ents, (match planted.fs.inodes e.2 with
        | some kd => decide (kd.mode &&& 0o170000#32 = 0o40000#32 ↔ kd.kind = .dir) | none => true) = true) ∧ nd.ents.length < 5 := by
    refine ⟨_, rfl, ?_, ?_, ?_, ?_, ?_⟩ <;> decide +kernel
  refine ⟨cg, nd, hc, by unfold Leads; rw [hP]; exact w, hnd, h1, h2, h3, ?_, ?_, h5⟩
  · intro e he kd hkd
    have := h4 e he
    rw [hkd] at this
    exact of_decide_eq_true this
  · cases hc; decide +kernel

/-- C104, violated: a directory made with type bits in its mode (`mkdir("/d", 0100777)` is accepted) is shown as a file: `ls` prints no slash
behind it, `tree` does not show what is in it. -/
theorem odd_dir_violated : let s := run init [(0, .mkdir qD 0o100777#32), (0, .mkdir qE 0o777#32)]
    Reach s ∧ (step s 0 (.stat qE)).2.ret = .ok 0 ∧ (∃ nd, s.fs.inodes 9 = some nd ∧ nd.kind = .dir) ∧
    (ls 0 8 s qD).out = some [⟨qD, false⟩] ∧ (tree 0 8 s qD 0).out = some [] ∧
    (∃ L, (ls 0 8 s [47]).out = some L ∧ ⟨qD, false⟩ ∈ L ∧ ⟨qD, true⟩ ∉ L) ∧
    ∃ L, (tree 0 8 s [47] 0).out = some L ∧ ⟨0, qD⟩ ∈ L ∧ ∀ l ∈ L, l.path ≠ qE := by
  refine ⟨Reach.init.run _ (by decide +kernel), by decide +kernel, ⟨_, rfl, by decide +kernel⟩, by decide +kernel, by decide +kernel, ?_, ?_⟩
  · exact ⟨_, rfl, by decide +kernel, by decide +kernel⟩
  · exact ⟨_, rfl, by decide +kernel, by decide +kernel⟩

/-- C104, violated: without a free descriptor `ls` and `tree` abort on every directory. -/
theorem show_full {s : State} (hR : Reach s) {c : Nat} {cg : Cage} (hc : s.cages c = some cg) {p : Str} {i : Nat} {nd : Inode}
    (hi : Leads s cg p i) (hnd : s.fs.inodes i = some nd) (hm : nd.mode &&& 0o170000#32 = 0o40000#32)
    (hfull : ∀ fd, fd < 1024 → cg.fds fd ≠ none) (m k : Nat) : ls c k s p = .abort ∧ tree c (k + 1) s p m = .abort := by
  have hmd : modeIsDir (statOf i nd).mode = true := by
    show (nd.mode &&& sFileType == sIFDIR) = true
    exact beq_iff_eq.2 hm
  have hn : nextFd cg.fds 0 = none := by
    cases e : nextFd cg.fds 0 with
    | none => rfl
    | some fd =>
      obtain ⟨-, h1, h2, -⟩ := nextFd_some e
      exact absurd h2 (hfull fd h1)
  have ho : (step s c (.openP p 0#32 0#32)).2.ret = .err .ENFILE ∨
      (step s c (.openP p 0#32 0#32)).2.ret = .err .ENOENT := by
    simp only [step, hc, openSys, hn]
    by_cases hp : p = [] <;> simp [hp, Out.r]
  have hv : ∀ {α : Type} (f : State → Str → Bool → Run α), visit f c p k s = .abort := by
    intro α f
    rcases ho with e | e <;> simp only [visit, e]
  constructor
  · simp only [ls, stat_at hR hc hi hnd, hmd, if_true, hv]
  · simp only [tree, stat_at hR hc hi hnd, hmd, if_true, hv]

/-- C104, violated: a concrete case of `show_full`, the table filled by `dup`. -/
theorem show_full_violated : ∃ s, Reach s ∧ ∀ m k, ls 0 k s tmp = .abort ∧ tree 0 (k + 1) s tmp m = .abort := by
  obtain ⟨hR, cg, hc, hfull, -, -, -⟩ := dups_table 1021 (by omega)
  have hfs : ∀ k, k ≤ 1021 → (dups k).fs = init.fs := by
    intro k
    induction k with
    | zero => intro _; rfl
    | succ k ih =>
      intro hk
      obtain ⟨-, cg', hc', h1, h2, -⟩ := dups_table k (by omega)
      obtain ⟨n, f, hs⟩ := h1 1 (by omega)
      have hn : nextFd cg'.fds 0 = some (3 + k) :=
        nextFd_eq (by omega) (h2 _ (Nat.le_refl _)) (fun j hj => by obtain ⟨n, f, e⟩ := h1 j hj; rw [e]; simp)
      rw [dups_succ]
      have hg : getFd cg'.fds 1 = some (some (.stream n f)) := by
        have := getFd_nat (t := cg'.fds) (fd := 1) (by decide)
        rw [hs] at this; exact this
      simp only [step, hc', dup, if_neg (show ¬ (1 : Int) = 0 by decide), hg, dupFrom, hn, Desc.isEpoll, Bool.false_eq_true, if_false,
        State.putCopy, State.bump, setFd_fs]
      exact ih (by omega)
  have hfs := hfs 1021 (Nat.le_refl _)
  refine ⟨dups 1021, hR, fun m k => ?_⟩
  have hP : cg.path tmp = [[116, 109, 112]] := by
    rw [Cage.path, normpath_absolute cg.cwd [slash] tmp (by decide)]; decide +kernel
  obtain ⟨rd, hrd, hrk, hrm⟩ : ∃ nd, init.fs.inodes rootIno = some nd ∧ nd.isDir ∧ ([116, 109, 112], 8) ∈ nd.ents :=
    ⟨_, rfl, by decide +kernel, by decide +kernel⟩
  obtain ⟨nd, hnd, hm⟩ : ∃ nd, init.fs.inodes 8 = some nd ∧ nd.mode &&& 0o170000#32 = 0o40000#32 :=
    ⟨_, rfl, by decide +kernel⟩
  refine show_full hR hc (i := 8) (nd := nd) ?_ (by rw [hfs]; exact hnd) hm ?_ m k
  · unfold Leads; rw [hP, hfs]; exact .down hrd hrk hrm (.here _)
  · intro fd hfd
    obtain ⟨n, f, e⟩ := hfull fd (by omega)
    rw [e]; simp

end Verif.FsShow
