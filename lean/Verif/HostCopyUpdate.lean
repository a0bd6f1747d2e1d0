import Verif.HostCopyTree

/-!
# Updating from the host: C75
-/

namespace Verif.HostCopy

open Verif.Path Verif.Fs Verif.Kernel Verif.FsTools

set_option linter.unusedSimpArgs false

/-! ## Lemmas -/

/-- Opening a file that is there, for reading. -/
theorem open_plain {s : State} (h : Reach s) {c : Nat} {cg : Cage} (hc : s.cages c = some cg) {p : Str} {i : Nat} {nd : Inode}
    (hp : p ≠ []) (hi : Leads s cg p i) (hnd : s.fs.inodes i = some nd) (hk : nd.kind = .file) {fd : Nat}
    (hfd : nextFd cg.fds 0 = some fd) :
    ∃ s', step s c (.openP p oCREAT sIRWXA) = (s', .r (.ok fd)) ∧ Reach s' ∧
      s'.cages = upd s.cages c (some (cg.withSlot fd (some (.file i 0 0#32)))) ∧
      s'.fs.inodes = upd s.fs.inodes i (some { nd with ref := nd.ref + 1 }) ∧ s'.fs.disk = s.fs.disk := by
  obtain ⟨par, hw, -⟩ := h.inv.walk_found hc hi
  obtain ⟨hb, -⟩ := h.inv.content (i := i) (size := nd.size) ⟨nd, hnd, hk, rfl⟩
  have hR := Reach.step c (.openP p oCREAT sIRWXA) h (by simp only [Tame, hc])
  generalize hr : step s c (.openP p oCREAT sIRWXA) = r at hR
  simp only [step, hc, openSys, if_neg hp, hfd, Fs.openP, hw, Fs.openExisting, if_neg (excl_clear oCREAT (by decide)), hnd, hk,
    if_neg (show ¬ (oCREAT &&& oTRUNC = oTRUNC) by decide)] at hr
  have e1 : r.1.fs.inodes = upd s.fs.inodes i (some { nd with ref := nd.ref + 1 }) := by
    rw [← hr, setFd_fs]
    simp only [Fs.set, Fs.openObj]
    cases s.fs.fobj i <;> simp only [hk]
  have e2 : r.1.fs.disk = s.fs.disk := by
    rw [← hr, setFd_fs]
    simp only [Fs.set, Fs.openObj]
    cases s.fs.fobj i with
    | some _ => rfl
    | none => simp only [hb, Option.getD_some]; rw [← hb, upd_self]
  refine ⟨r.1, ?_, hR (by rw [← hr]; simp [Out.r]), ?_, e1, e2⟩
  · exact Prod.ext rfl (by rw [← hr])
  · rw [← hr]
    have key : ∀ F : Fs, (({ s with fs := F } : State).setFd c fd (some (newDesc i 0 oCREAT))).cages =
        upd s.cages c (some (cg.withSlot fd (some (newDesc i 0 oCREAT)))) := fun F => setFd_at (s := { s with fs := F }) hc
    refine (key _).trans ?_
    rw [show newDesc i 0 oCREAT = .file i 0 0#32 from rfl]

theorem read_cages {s : State} (h : Reach s) {c fd i pos size n : Nat} {f : BitVec 32} {cg : Cage}
    (hc : s.cages c = some cg) (hf1 : fd < 1024) (hs : cg.fds fd = some (.file i pos f)) (hf : IsFile s i size)
    (hm : f &&& 3#32 ≠ 1#32) (hp : pos ≤ size) : ∃ pos', (step s c (.read fd n)).2.ret ≠ .panic ∧
    (step s c (.read fd n)).1.cages = upd s.cages c (some (cg.withSlot fd (some (.file i pos' f)))) := by
  have ho : OpenOn s c fd i pos f := ⟨hf1, cg, hc, hs⟩
  have hfo := h.inv.fobj ho hf
  obtain ⟨nd, h1, h2, h3⟩ := hf
  have hg : getFd cg.fds fd = some (some (.file i pos f)) := by rw [getFd_nat hf1, hs]
  have hw : isWronly f = false := by
    unfold isWronly oRDWRFLAGS; simpa using hm
  have hread : s.fs.readAt i pos n = some (((bytes s i).drop pos).take n) := by
    simp only [Fs.readAt, hfo, if_neg (by omega : ¬ pos > size), bytes]
  simp only [step, hc, Kernel.read, hg, hw, Bool.false_eq_true, if_false, h1, h2, hread]
  exact ⟨_, by simp, setFd_at hc⟩

theorem walk_cut {ino : Nat → Option Inode} {z : List Name} {k : Nat} : ∀ (q : List Name) {d : Nat}, Walk ino d (q ++ z) k →
    ∃ j, Walk ino d q j ∧ Walk ino j z k
  | [], d, w => ⟨d, .here d, w⟩
  | n :: q, d, w => by
    rw [List.cons_append] at w
    cases w with
    | down a b c w' =>
      obtain ⟨j, h1, h2⟩ := walk_cut q w'
      exact ⟨j, .down a b c h1, h2⟩

/-- The comparison, for a file that is there. -/
theorem compare_run {s : State} (h : Reach s) {c : Nat} {cg : Cage} (hc : s.cages c = some cg) {p : Str} {i : Nat} {nd : Inode}
    (hp : p ≠ []) (hi : Leads s cg p i) (hnd : s.fs.inodes i = some nd) (hk : nd.kind = .file) {content : List UInt8}
    (hlen : content.length = nd.size) (hfd : ∃ fd, fd < 1024 ∧ cg.fds fd = none) :
    ∃ s' b, compareFiles c p content s = some (s', b) ∧ (b = true ↔ bytes s i = content) ∧ Reach s' ∧ s'.cages = s.cages ∧
      s'.fs.inodes = s.fs.inodes ∧ s'.fs.disk = s.fs.disk := by
  obtain ⟨k, k1, k2⟩ := hfd
  cases hn : nextFd cg.fds 0 with
  | none => exact absurd k2 (nextFd_none hn k (Nat.zero_le _) k1)
  | some fd =>
    obtain ⟨f1, f2, -⟩ := nextFd_spec hn
    obtain ⟨s1, o1, o2, o3, o4, o5⟩ := open_plain h hc hp hi hnd hk hn
    have hf1 : IsFile s1 i nd.size := ⟨{ nd with ref := nd.ref + 1 }, by rw [o4, upd_same], hk, rfl⟩
    have hop : OpenOn s1 c fd i 0 0#32 := ⟨f1, _, by rw [o3, upd_same], by simp only [Cage.withSlot, upd_same]⟩
    obtain ⟨r1, -, -, r4⟩ := read_returns_partial o2 (n := content.length) hop hf1 (by decide) (Nat.zero_le _)
    have hc1 : s1.cages c = some (cg.withSlot fd (some (.file i 0 0#32))) := by rw [o3, upd_same]
    obtain ⟨pos, q1, q2⟩ := read_cages o2 hc1 f1 (pos := 0) (f := 0#32) (by simp only [Cage.withSlot, upd_same]) hf1
      (by decide) (Nat.zero_le _) (n := content.length)
    have hb1 : bytes s1 i = bytes s i := by simp only [bytes, o5]
    have hl1 : (bytes s i).length = nd.size := (h.inv.content (i := i) (size := nd.size) ⟨nd, hnd, hk, rfl⟩).2
    rw [hb1, List.drop_zero, List.take_of_length_le (by omega)] at r1
    have hR2 := Reach.step c (.read fd content.length) o2 (by simp only [Tame, hc1]) q1
    generalize hr2 : step s1 c (.read fd content.length) = r at r1 r4 q1 q2 hR2
    have hc2 : r.1.cages c = some (cg.withSlot fd (some (.file i pos 0#32))) := by
      rw [q2, o3]; simp only [upd_upd, upd_same, Cage.withSlot]
    have hn2 : r.1.fs.inodes i = some { nd with ref := nd.ref + 1 } := by rw [r4, o4, upd_same]
    have hlink : nd.link ≠ 0 := walk_link h (normpath_path (h.inv.cage c cg hc).2.2 p).2 hi hnd (by simp only [Inode.isDir, hk])
    obtain ⟨s3, l1, l2, l3, l4, l5⟩ := close_named hR2 (pos := pos) (f := 0#32) hc2 f1 (by simp only [Cage.withSlot, upd_same]) hn2 hk hlink
    refine ⟨s3, content == bytes s i, ?_, ?_, l2, ?_, ?_, ?_⟩
    · rw [compareFiles, o1]
      simp only [Out.r, hr2]
      simp only [l1]
      simp only [r1, hl1, hlen, Nat.sub_self, List.replicate_zero, List.append_nil]
      rw [if_neg (by simp [q1, Out.r])]
    · rw [beq_iff_eq]; exact eq_comm
    · rw [l3, q2, o3]
      simp only [upd_upd, Cage.withSlot]
      rw [show upd cg.fds fd none = cg.fds by rw [← f2, upd_self], ← hc, upd_self]
    · rw [l4, r4, o4, upd_upd]
      simp only [Nat.add_sub_cancel]
      rw [← hnd, upd_self]
    · rw [l5, r4, o5]

/-- The mode of a regular file. -/
def Regular (nd : Inode) : Prop := nd.kind = .file ∧ nd.mode &&& 0o170000#32 = 0o100000#32

theorem regular_iff {nd : Inode} (h : Regular nd) : modeIsReg nd.mode = true := by
  have := h.2
  simp only [modeIsReg, sFileType, sIFREG]
  simpa using this

/-! ## C75 -/

/-- C75.  Updating a file that has the content of the host's already: it is kept, and no attribute, content, name or descriptor changes. -/
theorem update_same {s : State} (h : Reach s) {c : Nat} {cg : Cage} (hc : s.cages c = some cg) {p : Str} (hp : p ≠ []) {i : Nat}
    {nd : Inode} (hi : Leads s cg p i) (hnd : s.fs.inodes i = some nd) (hr : Regular nd) {content : List UInt8}
    (hb : bytes s i = content) (hfd : ∃ fd, fd < 1024 ∧ cg.fds fd = none) :
    ∃ s', updateInto c p content s = .kept s' ∧ Reach s' ∧ s'.cages = s.cages ∧ s'.fs.inodes = s.fs.inodes ∧ s'.fs.disk = s.fs.disk := by
  have hlen : content.length = nd.size := by
    rw [← hb]; exact (h.inv.content (i := i) (size := nd.size) ⟨nd, hnd, hr.1, rfl⟩).2
  obtain ⟨nd', e1, e2⟩ := stat_found h hc hi
  rw [hnd] at e1; cases e1
  obtain ⟨s', b, k1, k2, k3, k4, k5, k6⟩ := compare_run h hc hp hi hnd hr.1 hlen hfd
  have hbt : b = true := k2.2 hb
  subst hbt
  have hm : modeIsReg (statOf i nd).mode = true := regular_iff hr
  refine ⟨s', ?_, k3, k4, k5, k6⟩
  simp only [updateInto, e2, hm, hlen, show (statOf i nd).size = nd.size from rfl, if_true, k1]
  simp

/-- C75.  Updating a file that differs from the host's: the path leads to a regular file with the content of the host's.  Every other path
leads where it led, and what it leads to keeps its content - also when it is another name of the replaced file, and for the descriptors
that are open on the replaced file. -/
theorem update_differs {s : State} (h : Reach s) {c : Nat} {cg : Cage} (hc : s.cages c = some cg) {p : Str} (hp : p ≠ []) {i d : Nat}
    {nd pd : Inode} {ps : List Name} {n : Name} (hi : Leads s cg p i) (hnd : s.fs.inodes i = some nd) (hr : Regular nd)
    {content : List UInt8} (hb : bytes s i ≠ content) (hP : cg.path p = ps ++ [n]) (wd : Walk s.fs.inodes rootIno ps d)
    (hd : s.fs.inodes d = some pd) (hw : pd.mode &&& 0o222#32 ≠ 0) (hclear : Clear s (cg.path p))
    (hfd : ∃ fd, fd < 1024 ∧ cg.fds fd = none) :
    ∃ s' i' nd', updateInto c p content s = .copied s' ∧ Reach s' ∧ s'.cages = s.cages ∧ Leads s' cg p i' ∧
      s'.fs.inodes i' = some nd' ∧ Regular nd' ∧ nd'.link = 1 ∧ bytes s' i' = content ∧ Clear s' (cg.path p) ∧
      (∀ q k, (∀ m ∈ q, Proper m) → q ≠ cg.path p → (Walk s'.fs.inodes rootIno q k ↔ Walk s.fs.inodes rootIno q k)) ∧
      (∀ k kd, s.fs.inodes k = some kd → kd.isDir = false →
        (0 < kd.ref ∨ ∃ q, (∀ m ∈ q, Proper m) ∧ q ≠ cg.path p ∧ Walk s.fs.inodes rootIno q k) →
        k ≠ i' ∧ bytes s' k = bytes s k ∧ ∃ l, s'.fs.inodes k = some { kd with link := l }) ∧
      (∀ q k kd, (∀ m ∈ q, Proper m) → Walk s.fs.inodes rootIno q k → s.fs.inodes k = some kd → kd.isDir = true →
        ∃ kd', s'.fs.inodes k = some kd' ∧ kd'.isDir = true ∧ kd'.mode = kd.mode) := by
  have T := h.inv.fs.tree
  have hg := (normpath_path (h.inv.cage c cg hc).2.2 p).2
  have hndd : nd.isDir = false := by simp only [Inode.isDir, hr.1]
  have hdd : pd.isDir := (found_at h hc hi hP wd hd).2.1
  obtain ⟨nd', e1, e2⟩ := stat_found h hc hi
  rw [hnd] at e1; cases e1
  have hm : modeIsReg (statOf i nd).mode = true := regular_iff hr
  have hcmp : ∃ s1, (if content.length = (statOf i nd).size then compareFiles c p content s else some (s, false)) = some (s1, false) ∧
      Reach s1 ∧ s1.cages = s.cages ∧ s1.fs.inodes = s.fs.inodes ∧ s1.fs.disk = s.fs.disk := by
    by_cases hl : content.length = nd.size
    · obtain ⟨s1, b, k1, k2, k3⟩ := compare_run h hc hp hi hnd hr.1 hl hfd
      have : b = false := by
        cases b with
        | false => rfl
        | true => exact absurd (k2.1 rfl) hb
      subst this
      exact ⟨s1, by rw [if_pos (show content.length = (statOf i nd).size from hl), k1], k3⟩
    · exact ⟨s, by rw [if_neg (show ¬ content.length = (statOf i nd).size from hl)], h, rfl, rfl, rfl⟩
  obtain ⟨s1, g1, g2, g3, g4, g5⟩ := hcmp
  have hc1 : s1.cages c = some cg := by rw [g3, hc]
  obtain ⟨s2, u1, u2⟩ := unlink_cut g2 hc1 hp (i := i) (nd := nd) (by unfold Leads; rw [g4]; exact hi) (by rw [g4, hnd]) hndd hP
    (by rw [g4]; exact wd) (by rw [g4, hd]) hw
  have hcut := u2.cut
  have hc2 : s2.cages c = some cg := by rw [u2.cages, hc1]
  have hpp : ∀ m ∈ ps ++ [n], Proper m := fun m hm => Good.proper (hg m (by rw [hP]; exact hm))
  have hno : ∀ k, ¬ Leads s2 cg p k := by
    intro k w
    unfold Leads at w; rw [hP] at w
    exact ((hcut.paths _ k hpp).1 w).2 (List.prefix_refl _)
  have hbelow : ∀ q k, (∀ m ∈ q, Proper m) → ps ++ [n] <+: q → q ≠ ps ++ [n] → ¬ Walk s.fs.inodes rootIno q k := by
    rintro q k hq ⟨z, rfl⟩ hne w
    obtain ⟨j, w1, w2⟩ := walk_cut _ w
    rw [walk_fun T w1 (by unfold Leads at hi; rw [hP] at hi; exact hi)] at w2
    cases w2 with
    | here => simp at hne
    | down a b => rw [hnd] at a; cases a; rw [hndd] at b; cases b
  have hA : ∀ q k, (∀ m ∈ q, Proper m) → q ≠ ps ++ [n] → Walk s.fs.inodes rootIno q k → ¬ ps ++ [n] <+: q :=
    fun q k hq hne w hpre => hbelow q k hq hpre hne w
  have hkeep : ∀ q k, (∀ m ∈ q, Proper m) → q ≠ ps ++ [n] → Walk s.fs.inodes rootIno q k → Walk s2.fs.inodes rootIno q k :=
    fun q k hq hne w => (hcut.paths q k hq).2 ⟨by rw [g4]; exact w, hA q k hq hne w⟩
  have hback : ∀ q k, (∀ m ∈ q, Proper m) → Walk s2.fs.inodes rootIno q k → Walk s.fs.inodes rootIno q k :=
    fun q k hq w => by rw [← g4]; exact ((hcut.paths q k hq).1 w).1
  have hclear2 : Clear s2 (cg.path p) := by
    intro q hq k w
    have hqp := above_proper hq hg
    have hqn : q ≠ ps ++ [n] := by rw [← hP]; exact above_ne hq
    have w0 := hback q k hqp w
    obtain ⟨kd, m1, m2, m3⟩ := hclear q hq k w0
    by_cases e : q = ps
    · subst e
      have := walk_fun T w0 wd; subst this
      rw [hd] at m1; cases m1
      exact ⟨_, u2.par, m2, m3⟩
    · exact ⟨kd, hcut.dirs q k kd hqp (hA q k hqp hqn w0) e (by rw [g4]; exact w0) (by rw [g4]; exact m1) m2, m2, m3⟩
  obtain ⟨s', i', nd', k1, k2, k3, k4, k5, k6, k7, k8, k9, k10, k11, k12, -⟩ := copy_file u2.reach hc2 (create := true) content
    (by rw [hP]; simp) hclear2 (.inl rfl) (fun k w => absurd w (hno k)) hfd
  have hnew : s2.fs.inodes i' = none := by
    cases hs : s2.fs.inodes i' with
    | none => rfl
    | some od => exact absurd (k11 od hs).1 (hno _)
  have T' := k2.inv.fs.tree
  refine ⟨s', i', nd', ?_, k2, by rw [k3, u2.cages, g3], k4, k5, ⟨k6, ?_⟩, (k12 hnew).2, k8, k9, ?_, ?_, ?_⟩
  · simp only [updateInto, e2, hm, g1, u1, k1]
    simp
  · rw [(k12 hnew).1]; decide
  · intro q k hq hne
    rw [hP] at hne
    constructor
    · intro w
      rcases k10.fresh q k hq w with g | ⟨z, hz⟩
      · exact hback q k hq g
      · rw [hP] at hz
        have : ∃ k', Walk s.fs.inodes rootIno q k' := by
          have w0 : Walk s.fs.inodes rootIno (q ++ z) i := by rw [hz, ← hP]; exact hi
          obtain ⟨j, w1, -⟩ := walk_cut _ w0
          exact ⟨j, w1⟩
        obtain ⟨k', w'⟩ := this
        have := walk_fun T' w (k10.keeps q k' (hkeep q k' hq hne w'))
        subst this; exact w'
    · intro w
      exact k10.keeps q k (hkeep q k hq hne w)
  · intro k kd hk hkd hx
    obtain ⟨l, f1, f2⟩ := hcut.files k kd (by rw [g4]; exact hk) hkd (by
      refine hx.imp id ?_
      rintro ⟨q, a, b, c'⟩
      rw [hP] at b
      exact ⟨q, a, hA q k a b c', by rw [g4]; exact c'⟩)
    have hne : k ≠ i' := by rintro rfl; rw [hnew] at f1; cases f1
    obtain ⟨n1, n2⟩ := k10.node k _ f1 hkd hne
    exact ⟨hne, by rw [n2]; simp only [bytes, f2, g5], l, n1⟩
  · intro q k kd hq w hk hkd
    have hqn : q ≠ ps ++ [n] := by
      rintro rfl
      have := walk_fun T w (by unfold Leads at hi; rw [hP] at hi; exact hi)
      subst this; rw [hnd] at hk; cases hk; rw [hndd] at hkd; cases hkd
    by_cases e : q = ps
    · subst e
      have := walk_fun T w wd; subst this
      rw [hd] at hk; cases hk
      obtain ⟨y, y1, y2, y3⟩ := k10.dir _ _ u2.par hkd
      exact ⟨y, y1, y2, y3⟩
    · exact k10.dir k kd (hcut.dirs q k kd hq (hA q k hq hqn w) e (by rw [g4]; exact w) (by rw [g4]; exact hk) hkd) hkd

/-- C75.  Updating where there is no file: the file is there, new, with the content of the host's, and only it and its missing ancestors
are new.  (An empty file needs its directory: `update_empty_violated`.) -/
theorem update_missing {s : State} (h : Reach s) {c : Nat} {cg : Cage} (hc : s.cages c = some cg) {p : Str} {content : List UInt8}
    (hne : cg.path p ≠ []) (hclear : Clear s (cg.path p)) (hno : ∀ i, ¬ Leads s cg p i) (hcont : content ≠ [])
    (hfd : ∃ fd, fd < 1024 ∧ cg.fds fd = none) :
    ∃ s' i nd, updateInto c p content s = .copied s' ∧ Reach s' ∧ s'.cages = s.cages ∧ Leads s' cg p i ∧
      s'.fs.inodes i = some nd ∧ Regular nd ∧ bytes s' i = content ∧ s.fs.inodes i = none ∧
      Grown (fun q => q <+: cg.path p) (fun _ => False) s s' := by
  obtain ⟨s', i, nd, k1, k2, k3, k4, k5, k6, k7, k8, k9, k10, k11, k12, -⟩ := copy_file h hc (create := true) content
    hne hclear (.inl rfl) (fun k w => absurd w (hno k)) hfd
  have hnew : s.fs.inodes i = none := by
    cases hs : s.fs.inodes i with
    | none => rfl
    | some od => exact absurd (k11 od hs).1 (hno _)
  refine ⟨s', i, nd, ?_, k2, k3, k4, k5, ⟨k6, by rw [(k12 hnew).1]; decide⟩, k8, hnew, k10.keeps, k10.fresh, ?_, k10.dir⟩
  · have hl : ¬ content.length = 0 := by simpa using hcont
    simp only [updateInto, stat_missing h hc hno, if_neg hl, k1]
    simp
  · intro j jd hj hjd _
    exact k10.node j jd hj hjd (by rintro rfl; rw [hnew] at hj; cases hj)

/-- C75.  An empty file, updated where its directory is there and it is not: it is there, empty, and nothing else is new. -/
theorem update_empty {s : State} (h : Reach s) {c : Nat} {cg : Cage} (hc : s.cages c = some cg) {p : Str} (hp : p ≠ [])
    {ps : List Name} {n : Name} {d : Nat} {pd : Inode} (hP : cg.path p = ps ++ [n]) (wd : Walk s.fs.inodes rootIno ps d)
    (hd : s.fs.inodes d = some pd) (hdd : pd.isDir) (hno : ∀ i, ¬ Leads s cg p i) (hfd : ∃ fd, fd < 1024 ∧ cg.fds fd = none) :
    ∃ s' i nd, updateInto c p [] s = .kept s' ∧ Reach s' ∧ s'.cages = s.cages ∧ Leads s' cg p i ∧
      s'.fs.inodes i = some nd ∧ Regular nd ∧ bytes s' i = [] ∧ s.fs.inodes i = none ∧
      Grown (fun q => q = cg.path p) (fun _ => False) s s' := by
  obtain ⟨k, k1, k2⟩ := hfd
  cases hn : nextFd cg.fds 0 with
  | none => exact absurd k2 (nextFd_none hn k (Nat.zero_le _) k1)
  | some fd =>
    obtain ⟨f1, f2, -⟩ := nextFd_spec hn
    obtain ⟨s1, i, o1, o2, o3, o4, o5, o6, o7, o8⟩ := open_free h hc hp hP wd hd hdd hno (flags := oCREAT) (by decide) (by decide) hn
    rw [show oCREAT &&& 0o2000003#32 = 0#32 from by decide] at o3
    have hf1 : IsFile s1 i 0 := ⟨_, o7, rfl, rfl⟩
    have hop : OpenOn s1 c fd i 0 0#32 := ⟨f1, _, by rw [o3, upd_same], by simp only [Cage.withSlot, upd_same]⟩
    obtain ⟨r1, -, -, r4⟩ := read_returns_partial o2 (n := 0) hop hf1 (by decide) (Nat.zero_le _)
    have hc1 : s1.cages c = some (cg.withSlot fd (some (.file i 0 0#32))) := by rw [o3, upd_same]
    obtain ⟨pos, q1, q2⟩ := read_cages o2 hc1 f1 (pos := 0) (f := 0#32) (by simp only [Cage.withSlot, upd_same]) hf1
      (by decide) (Nat.zero_le _) (n := 0)
    have hR2 := Reach.step c (.read fd 0) o2 (by simp only [Tame, hc1]) q1
    generalize hr2 : step s1 c (.read fd 0) = r at r1 r4 q1 q2 hR2
    have hc2 : r.1.cages c = some (cg.withSlot fd (some (.file i pos 0#32))) := by
      rw [q2, o3]; simp only [upd_upd, upd_same, Cage.withSlot]
    have hn2 : r.1.fs.inodes i = some (newFile sIRWXA) := by rw [r4, o7]
    obtain ⟨s3, l1, l2, l3, l4, l5⟩ := close_named hR2 (pos := pos) (f := 0#32) hc2 f1 (by simp only [Cage.withSlot, upd_same]) hn2 rfl
      (by simp [newFile])
    have hcmp : compareFiles c p [] s = some (s3, true) := by
      rw [compareFiles, o1]
      simp only [Out.r, List.length_nil, hr2, l1, r1]
      simp [q1]
    have hw : ∀ q k, Walk s3.fs.inodes rootIno q k ↔ Walk s1.fs.inodes rootIno q k := by
      have e3 : s3.fs.inodes = upd s1.fs.inodes i (some { newFile sIRWXA with ref := 0 }) := by rw [l4, r4]; rfl
      intro q k
      constructor
      · intro w
        refine Walk.congr ?_ w
        intro a x ha hx
        rw [e3] at ha
        by_cases e : a = i
        · subst e; rw [upd_same] at ha; cases ha; cases hx
        · rw [upd_ne _ _ e] at ha; exact ⟨x, ha, hx, fun _ h => h⟩
      · intro w
        refine Walk.congr ?_ w
        intro a x ha hx
        rw [e3]
        by_cases e : a = i
        · subst e; rw [o7] at ha; cases ha; cases hx
        · rw [upd_ne _ _ e]; exact ⟨x, ha, hx, fun _ h => h⟩
    have hb3 : ∀ j, bytes s3 j = bytes s1 j := fun j => by simp only [bytes, l5, r4]
    have hne : ∀ j jd, s.fs.inodes j = some jd → j ≠ i := by rintro j jd hj rfl; rw [o6] at hj; cases hj
    have hother : ∀ j, j ≠ i → s3.fs.inodes j = s1.fs.inodes j := fun j hj => by rw [l4, r4, upd_ne _ _ hj]
    refine ⟨s3, i, _, ?_, l2, ?_, ?_, by rw [l4, upd_same], ⟨rfl, by decide⟩, by rw [hb3, o8], o6, ?_, ?_, ?_, ?_⟩
    · simp only [updateInto, stat_missing h hc hno, List.length_nil, if_true, hcmp]
      simp
    · rw [l3, q2, o3]
      simp only [upd_upd, Cage.withSlot]
      rw [show upd cg.fds fd none = cg.fds by rw [← f2, upd_self], ← hc, upd_self]
    · unfold Leads; rw [hP, hw]; exact o5
    · exact fun q k w => (hw q k).2 (o4.keeps q k w)
    · intro q k hq w; rw [hP]; exact o4.fresh q k hq ((hw q k).1 w)
    · intro j jd hj hjd he
      rw [hother j (hne j jd hj), hb3]
      exact o4.node j jd hj hjd he
    · intro j jd hj hjd
      rw [hother j (hne j jd hj)]
      exact o4.dir j jd hj hjd

/-- C75.  A second update from the same host file keeps the file and changes nothing. -/
theorem update_twice {s : State} (h : Reach s) {c : Nat} {cg : Cage} (hc : s.cages c = some cg) {p : Str} (hp : p ≠ []) {i d : Nat}
    {nd pd : Inode} {ps : List Name} {n : Name} (hi : Leads s cg p i) (hnd : s.fs.inodes i = some nd) (hr : Regular nd)
    (content : List UInt8) (hP : cg.path p = ps ++ [n]) (wd : Walk s.fs.inodes rootIno ps d)
    (hd : s.fs.inodes d = some pd) (hw : pd.mode &&& 0o222#32 ≠ 0) (hclear : Clear s (cg.path p))
    (hfd : ∃ fd, fd < 1024 ∧ cg.fds fd = none) :
    ∃ s' s'', (updateInto c p content s).run = .done s' ∧ updateInto c p content s' = .kept s'' ∧
      (∃ i', Leads s'' cg p i' ∧ bytes s'' i' = content) ∧ s''.cages = s.cages ∧ s''.fs.inodes = s'.fs.inodes ∧
      s''.fs.disk = s'.fs.disk := by
  by_cases hb : bytes s i = content
  · obtain ⟨s', k1, k2, k3, k4, k5⟩ := update_same h hc hp hi hnd hr hb hfd
    have hb' : bytes s' i = content := by simp only [bytes, k5]; exact hb
    have hi' : Leads s' cg p i := by unfold Leads; rw [k4]; exact hi
    obtain ⟨s'', j1, -, j3, j4, j5⟩ := update_same k2 (by rw [k3]; exact hc) hp hi' (by rw [k4]; exact hnd) hr hb' hfd
    exact ⟨s', s'', by rw [k1]; rfl, j1, ⟨i, by unfold Leads; rw [j4]; exact hi', by simp only [bytes, j5]; exact hb'⟩, by rw [j3, k3], j4, j5⟩
  · obtain ⟨s', i', nd', k1, k2, k3, k4, k5, k6, -, k7, -⟩ := update_differs h hc hp hi hnd hr hb hP wd hd hw hclear hfd
    obtain ⟨s'', j1, -, j3, j4, j5⟩ := update_same k2 (by rw [k3]; exact hc) hp k4 k5 k6 k7 hfd
    exact ⟨s', s'', by rw [k1]; rfl, j1, ⟨i', by unfold Leads; rw [j4]; exact k4, by simp only [bytes, j5]; exact k7⟩, by rw [j3, k3], j4, j5⟩

end Verif.HostCopy
