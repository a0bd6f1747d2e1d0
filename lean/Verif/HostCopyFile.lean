import Verif.HostCopyLemmas

/-! # The copy of one file -/

namespace Verif.HostCopy

open Verif.Path Verif.Fs Verif.Kernel Verif.FsTools

set_option linter.unusedSimpArgs false

theorem walk_link {s : State} (h : Reach s) {ns : List Name} {i : Nat} {nd : Inode} (hg : ∀ n ∈ ns, Good n)
    (w : Walk s.fs.inodes rootIno ns i) (hi : s.fs.inodes i = some nd) (hd : nd.isDir = false) : nd.link ≠ 0 := by
  have T := h.inv.fs.tree
  rcases snoc_cases ns with e | ⟨a, n, e⟩
  · subst e; cases w
    obtain ⟨x, hx, hx'⟩ := T.root
    rw [hi] at hx; cases hx; rw [hd] at hx'; cases hx'
  · subst e
    obtain ⟨d, pd, -, h1, h2, h3⟩ := w.split
    rw [T.flink hi hd]
    refine Nat.ne_of_gt (sumTo_pos (T.bound h1) ?_)
    simp only [namesIn, h1]
    exact nm_pos.2 ⟨n, h3, Good.proper (hg n (by simp))⟩

/-- The flags of the open: O_WRONLY|O_CREAT|O_TRUNC. -/
def putFlags : BitVec 32 := oCREAT ||| oTRUNC ||| 1#32

theorem nextFd_spec {t : Table} {fd : Nat} (h : nextFd t 0 = some fd) : fd < 1024 ∧ t fd = none ∧ ∀ k < fd, t k ≠ none := by
  obtain ⟨-, h2, h3, h4⟩ := nextFd_some h
  exact ⟨h2, h3, fun k hk => h4 k (Nat.zero_le _) hk⟩

/-- What the open leaves, on an existing file or a free name. -/
theorem open_put {s : State} (h : Reach s) {c : Nat} {cg : Cage} (hc : s.cages c = some cg) {ns : List Name}
    (hg : ∀ n ∈ ns, Good n) {fd : Nat} (hfd : nextFd cg.fds 0 = some fd)
    (ht : (∃ i nd, Walk s.fs.inodes rootIno ns i ∧ s.fs.inodes i = some nd ∧ nd.kind = .file) ∨
      ((∀ i, ¬ Walk s.fs.inodes rootIno ns i) ∧ ∃ ps n d pd, ns = ps ++ [n] ∧ Walk s.fs.inodes rootIno ps d ∧
        s.fs.inodes d = some pd ∧ pd.isDir = true)) :
    ∃ s' i nd, step s c (.openP (render ns) putFlags sIRWXA) = (s', .r (.ok fd)) ∧ Reach s' ∧
      s'.cages = upd s.cages c (some (cg.withSlot fd (some (.file i 0 1#32)))) ∧ Walk s'.fs.inodes rootIno ns i ∧
      s'.fs.inodes i = some nd ∧ nd.kind = .file ∧ bytes s' i = [] ∧ Grown (fun q => q = ns) (fun j => j = i) s s' ∧
      (∀ od, s.fs.inodes i = some od → Walk s.fs.inodes rootIno ns i ∧ nd = { od with size := 0, ref := od.ref + 1 }) ∧
      (s.fs.inodes i = none → nd = newFile sIRWXA) := by
  have hcw := (h.inv.cage c cg hc).2.2
  have hpath := path_render hcw hg
  have hfl : putFlags &&& 0o2000003#32 = 1#32 := by decide
  rcases ht with ⟨i, nd, wi, hnd, hk⟩ | ⟨hno, ps, n, d, pd, rfl, wd, hd, hdd⟩
  · have hl : Leads s cg (render ns) i := by unfold Leads; rw [hpath]; exact wi
    obtain ⟨o1, o2, o3, o4, o5, o6⟩ := open_trunc h hc (render_ne ns) hl hnd hk sIRWXA (flags := putFlags) (by decide) (by decide)
      (nextFd_spec hfd)
    have hR := Reach.step c (.openP (render ns) putFlags sIRWXA) h (by simp only [Tame, hc]) (by rw [o1]; simp)
    generalize hst : step s c (.openP (render ns) putFlags sIRWXA) = r at o1 o2 o3 o4 o5 o6 hR
    have hndd : nd.isDir = false := by simp only [Inode.isDir, hk]
    have hw : ∀ q k, Walk r.1.fs.inodes rootIno q k ↔ Walk s.fs.inodes rootIno q k := by
      have hino : r.1.fs.inodes = upd s.fs.inodes i (some { nd with size := 0, ref := nd.ref + 1 }) := by
        funext j
        by_cases e : j = i
        · subst e; rw [o3, upd_same]
        · rw [(o4 j e).2, upd_ne _ _ e]
      intro q k
      constructor
      · intro w
        refine Walk.congr ?_ w
        intro a x ha hx
        rw [hino] at ha
        by_cases e : a = i
        · subst e; rw [upd_same] at ha; cases ha
          rw [show Inode.isDir { nd with size := 0, ref := nd.ref + 1 } = nd.isDir from rfl, hndd] at hx; cases hx
        · rw [upd_ne _ _ e] at ha; exact ⟨x, ha, hx, fun _ h => h⟩
      · intro w
        refine Walk.congr ?_ w
        intro a x ha hx
        rw [hino]
        by_cases e : a = i
        · subst e; rw [hnd] at ha; cases ha; rw [hndd] at hx; cases hx
        · rw [upd_ne _ _ e]; exact ⟨x, ha, hx, fun _ h => h⟩
    refine ⟨r.1, i, _, Prod.ext rfl o1, hR, ?_, (hw ns i).2 wi, o3, hk, o2, ⟨fun q k w => (hw q k).2 w, fun q k _ w => .inl ((hw q k).1 w), ?_, ?_⟩,
      fun od hod => ⟨wi, ?_⟩, fun hn => ?_⟩
    · rw [o6, hfl]; rfl
    · intro j jd hj _ hne
      exact ⟨by rw [(o4 j hne).2, hj], (o4 j hne).1⟩
    · intro j jd hj hjd
      have : j ≠ i := by rintro rfl; rw [hnd] at hj; cases hj; rw [hndd] at hjd; cases hjd
      exact ⟨jd, by rw [(o4 j this).2, hj], hjd, rfl⟩
    · rw [hnd] at hod; cases hod; rfl
    · rw [hnd] at hn; cases hn
  · have hno' : ∀ i, ¬ Leads s cg (render (ps ++ [n])) i := by
      intro i hi; unfold Leads at hi; rw [hpath] at hi; exact hno i hi
    obtain ⟨s', new, o1, o2, o3, o4, o5, o6, o7, o8⟩ := open_free h hc (render_ne _) hpath wd hd hdd hno' (flags := putFlags)
      (by decide) (by decide) hfd
    refine ⟨s', new, _, o1, o2, ?_, o5, o7, rfl, o8, o4.mono (fun _ g => g) (fun _ g => g.elim), ?_, fun _ => rfl⟩
    · rw [o3, hfl]
    · intro od hod; rw [o6] at hod; cases hod

/-- The copy after the loop. -/
theorem put_run {s : State} (h : Reach s) {c : Nat} {cg : Cage} (hc : s.cages c = some cg) {ns : List Name}
    (hg : ∀ n ∈ ns, Good n) {fd : Nat} (hfd : nextFd cg.fds 0 = some fd) (content : List UInt8)
    (ht : (∃ i nd, Walk s.fs.inodes rootIno ns i ∧ s.fs.inodes i = some nd ∧ nd.kind = .file) ∨
      ((∀ i, ¬ Walk s.fs.inodes rootIno ns i) ∧ ∃ ps n d pd, ns = ps ++ [n] ∧ Walk s.fs.inodes rootIno ps d ∧
        s.fs.inodes d = some pd ∧ pd.isDir = true)) :
    ∃ s' i nd, putFile c (render ns) content s = .copied s' ∧ Reach s' ∧ s'.cages = s.cages ∧ Walk s'.fs.inodes rootIno ns i ∧
      s'.fs.inodes i = some nd ∧ nd.kind = .file ∧ nd.size = content.length ∧ bytes s' i = content ∧
      Grown (fun q => q = ns) (fun j => j = i) s s' ∧
      (∀ od, s.fs.inodes i = some od → Walk s.fs.inodes rootIno ns i ∧ nd = { od with size := content.length }) ∧
      (s.fs.inodes i = none → nd.mode = 0o100777#32 ∧ nd.link = 1) := by
  obtain ⟨s1, i, nd, o1, o2, o3, o4, o5, o6, o7, o8, o9, o10⟩ := open_put h hc hg hfd ht
  obtain ⟨f1, f2, -⟩ := nextFd_spec hfd
  have hndd : nd.isDir = false := by simp only [Inode.isDir, o6]
  obtain ⟨c1, c2⟩ := chunks_flat maxRw (by unfold maxRw; decide) content.length content (Nat.le_refl _)
  have hc1 : s1.cages c = some (cg.withSlot fd (some (.file i 0 1#32))) := by rw [o3, upd_same]
  obtain ⟨s2, w1, w2, w3, w4, w5, w6⟩ := writes_run (c := c) (i := i) f1 (f := 1#32) (by decide) _ s1 _ nd o2 c2 hc1
    (by simp only [Cage.withSlot, upd_same, o7]; rfl) o5 o6
  rw [o7, c1, List.nil_append] at w3
  rw [w3] at w4 w5
  have hc2 : s2.cages c = some (cg.withSlot fd (some (.file i content.length 1#32))) := by
    rw [w4, upd_same]; simp only [Cage.withSlot, upd_upd]
  have hn2 : s2.fs.inodes i = some { nd with size := content.length } := by rw [w5, upd_same]
  have hlink := walk_link o2 hg o4 o5 hndd
  obtain ⟨s3, l1, l2, l3, l4, l5⟩ := close_named w2 (pos := content.length) (f := 1#32) hc2 f1 (by simp only [Cage.withSlot, upd_same]) hn2 o6 hlink
  have hfst : (step s2 c (.fstat fd)).2.ret ≠ .panic := by
    have := (fstat_size w2 (c := c) (fd := fd) (pos := content.length) (f := 1#32)
      ⟨f1, _, hc2, by simp only [Cage.withSlot, upd_same]⟩ ⟨_, hn2, o6, rfl⟩).1
    rw [this]; simp
  have hput : putFile c (render ns) content s = .copied s3 := by
    simp only [putFile]
    rw [show oCREAT ||| oTRUNC ||| 1#32 = putFlags from rfl]
    simp only [o1, Out.r, w1, if_neg hfst, l1, if_true]
  have hino : s3.fs.inodes = upd s1.fs.inodes i (some { nd with size := content.length, ref := nd.ref - 1 }) := by
    rw [l4, w5, upd_upd]
  have hb3 : ∀ j, bytes s3 j = bytes s2 j := fun j => by simp only [bytes, l5]
  have hw : ∀ q k, Walk s3.fs.inodes rootIno q k ↔ Walk s1.fs.inodes rootIno q k := by
    intro q k
    constructor
    · intro w
      refine Walk.congr ?_ w
      intro a x ha hx
      rw [hino] at ha
      by_cases e : a = i
      · subst e; rw [upd_same] at ha; cases ha
        rw [show Inode.isDir { nd with size := content.length, ref := nd.ref - 1 } = nd.isDir from rfl, hndd] at hx; cases hx
      · rw [upd_ne _ _ e] at ha; exact ⟨x, ha, hx, fun _ h => h⟩
    · intro w
      refine Walk.congr ?_ w
      intro a x ha hx
      rw [hino]
      by_cases e : a = i
      · subst e; rw [o5] at ha; cases ha; rw [hndd] at hx; cases hx
      · rw [upd_ne _ _ e]; exact ⟨x, ha, hx, fun _ h => h⟩
  have hG : Grown (fun q => q = ns) (fun j => j = i) s1 s3 := by
    refine ⟨fun q k w => (hw q k).2 w, fun q k _ w => .inl ((hw q k).1 w), ?_, ?_⟩
    · intro j jd hj _ hne
      refine ⟨by rw [hino, upd_ne _ _ hne, hj], by rw [hb3, w6 j hne]⟩
    · intro j jd hj hjd
      have : j ≠ i := by rintro rfl; rw [o5] at hj; cases hj; rw [hndd] at hjd; cases hjd
      exact ⟨jd, by rw [hino, upd_ne _ _ this, hj], hjd, rfl⟩
  refine ⟨s3, i, { nd with size := content.length, ref := nd.ref - 1 }, hput, l2, ?_, (hw ns i).2 o4, by rw [hino, upd_same], o6, rfl, by rw [hb3, w3], o8.trans hG, ?_, ?_⟩
  · rw [l3, w4, o3]
    simp only [upd_upd, Cage.withSlot]
    rw [show upd cg.fds fd none = cg.fds by rw [← f2, upd_self]]
    rw [← hc, upd_self]
  · intro od hod
    obtain ⟨g1, g2⟩ := o9 od hod
    refine ⟨g1, ?_⟩
    subst g2; simp
  · intro hn; subst_vars; rw [o10 hn]; exact ⟨by show sIFREG ||| sIRWXA = _; decide, rfl⟩

end Verif.HostCopy
