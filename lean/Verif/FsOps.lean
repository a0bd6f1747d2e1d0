import Verif.FsInv

/-!
# Preservation of the file system invariant by the namespace calls and file data operations
-/

namespace Verif.Fs
open Verif.Path

/-- All names of a path are proper file names. -/
abbrev GoodPath (p : List Name) : Prop := ∀ n ∈ p, Good n

/-! ## Creation -/

/-- The table after `create`. -/
theorem create_eq {fs : Fs} {par : Nat} {pd : Inode} (name : Name) (nd : Nat → Inode)
    (hp : fs.inodes par = some pd) (hd : pd.isDir) :
    ∃ fs', fs.create par name nd = some fs' ∧
      fs'.inodes = upd (upd fs.inodes par (some { pd with ents := entPut pd.ents name fs.next, link := pd.link + 1 }))
        fs.next (some (nd fs.next)) ∧
      fs'.next = fs.next + 1 ∧ fs'.fobj = fs.fobj ∧ fs'.disk = fs.disk ∧ fs'.dom = fs.dom ∧
      fs'.log = fs.log ++ [(par, fs'.inodes par), (fs.next, some (nd fs.next))] := by
  simp only [Fs.create, hp, hd, if_true]
  refine ⟨_, rfl, rfl, rfl, rfl, rfl, rfl, ?_⟩
  simp [Fs.logIno]

theorem FsInv.create {fs fs' : Fs} {cnt cnt' : Nat → Nat} (h : FsInv fs cnt) {par : Nat}
    {pd nd0 : Inode} {name : Name}
    (hp : fs.inodes par = some pd) (hd : pd.isDir) (hl : Live fs.inodes par) (hn : Good name)
    (hfree : entGet pd.ents name = none)
    (e1 : fs'.inodes = upd (upd fs.inodes par
      (some { pd with ents := entPut pd.ents name fs.next, link := pd.link + 1 })) fs.next (some nd0))
    (e2 : fs'.next = fs.next + 1)
    (hnew : (nd0.isDir = false ∧ nd0.ents = [] ∧ nd0.link = 1) ∨
      (nd0.isDir ∧ nd0.ents = initEnts fs.next par ∧ nd0.link = 3))
    (e3 : ∀ j, j ≠ fs.next → fs'.fobj j = fs.fobj j) (e4 : ∀ j, j ≠ fs.next → fs'.disk j = fs.disk j)
    (e5 : ∀ j, j ≠ fs.next → cnt' j = cnt j)
    (hloc : LocalAt (some nd0) (fs'.fobj fs.next) (fs'.disk fs.next) (cnt' fs.next)) : FsInv fs' cnt' := by
  have hb := h.tree.bound hp
  have h7 := h.tree.seven
  refine ⟨?_, ?_, by rw [e5 7 (by omega)]; exact h.c7⟩
  · rw [e1, e2]
    exact h.tree.create hp hd hl hn hfree ⟨rfl, rfl, rfl⟩ hnew
  · intro j
    by_cases e : j = fs.next
    · subst e; rw [e1, upd_same]; exact hloc
    · rw [e1, upd_ne _ _ e, e3 j e, e4 j e, e5 j e]
      by_cases e' : j = par
      · subst e'
        have := h.loc j
        rw [hp] at this
        rw [upd_same]
        simp only [LocalAt, isDir_iff.1 hd] at this ⊢
        exact this
      · rw [upd_ne _ _ e']; exact h.loc j

theorem FsInv.next_none {fs : Fs} {cnt} (h : FsInv fs cnt) :
    fs.inodes fs.next = none ∧ fs.fobj fs.next = none ∧ fs.disk fs.next = none ∧ cnt fs.next = 0 := by
  have hn : fs.inodes fs.next = none := by
    cases hx : fs.inodes fs.next with
    | none => rfl
    | some x => have := h.tree.bound hx; omega
  exact ⟨hn, Live.isDirAt h hn⟩

theorem FsInv.mkdir {fs : Fs} {cnt} (h : FsInv fs cnt) {p : List Name} (hp : GoodPath p)
    (mode : BitVec 32) : FsInv (fs.mkdir p mode).1 cnt ∧ (fs.mkdir p mode).2 ≠ .panic := by
  obtain ⟨r, hr, hlook⟩ := look h.tree p hp
  simp only [Fs.mkdir, hr]
  cases hlook with
  | root => exact ⟨h, by simp⟩
  | found => exact ⟨h, by simp⟩
  | gone => exact ⟨h, by simp⟩
  | free heq w hpar hd hl hf hg hno =>
    rename_i par ps n pd
    simp only
    split
    · exact ⟨h, by simp⟩
    · subst heq
      simp only [getLast_snoc]
      obtain ⟨fs', g0, g1, g2, g3, g4, -⟩ := create_eq n (fun new =>
          { kind := .dir, mode := sIFDIR ||| mode, size := 0, link := 3, ref := 0,
            ents := initEnts new par }) hpar hd
      simp only [g0]
      refine ⟨?_, by simp⟩
      obtain ⟨-, n2, n3, n4⟩ := h.next_none
      refine h.create hpar hd hl hg hf g1 g2 (.inr ⟨rfl, rfl, rfl⟩) (fun _ _ => by rw [g3])
        (fun _ _ => by rw [g4]) (fun _ _ => rfl) ?_
      simp only [LocalAt, g3, g4, n2, n3, n4]; simp

theorem FsInv.mknod {fs : Fs} {cnt} (h : FsInv fs cnt) {p : List Name} (hp : GoodPath p)
    (mode : BitVec 32) (dev : BitVec 64) :
    FsInv (fs.mknod p mode dev).1 cnt ∧ (fs.mknod p mode dev).2 ≠ .panic := by
  obtain ⟨r, hr, hlook⟩ := look h.tree p hp
  simp only [Fs.mknod, hr]
  cases hlook with
  | root => exact ⟨h, by simp⟩
  | found => exact ⟨h, by simp⟩
  | gone => exact ⟨h, by simp⟩
  | free heq w hpar hd hl hf hg hno =>
    rename_i par ps n pd
    simp only
    split
    · exact ⟨h, by simp⟩
    · split
      · exact ⟨h, by simp⟩
      · subst heq
        simp only [getLast_snoc]
        obtain ⟨fs', g0, g1, g2, g3, g4, -⟩ := create_eq n (fun _ =>
          { kind := .chr (DevNo.devtuple dev), mode := mode, size := 0, link := 1, ref := 0,
            ents := [] }) hpar hd
        simp only [g0]
        refine ⟨?_, by simp⟩
        obtain ⟨-, n2, n3, n4⟩ := h.next_none
        refine h.create hpar hd hl hg hf g1 g2 (.inl ⟨rfl, rfl, rfl⟩) (fun _ _ => by rw [g3])
          (fun _ _ => by rw [g4]) (fun _ _ => rfl) ?_
        simp only [LocalAt, g3, g4, n2, n3, n4]; simp

/-! ## open -/

theorem FsInv.openExisting {fs : Fs} {cnt} (h : FsInv fs cnt) {i : Nat} {nd : Inode}
    (hi : fs.inodes i = some nd) (h7 : i ≠ 7) (flags : BitVec 32) :
    (∃ r, fs.openExisting i flags = (fs, .failed r) ∧ r ≠ .panic) ∨
    (∃ fs' sz, fs.openExisting i flags = (fs', .opened i sz) ∧ FsInv fs' (upd cnt i (cnt i + 1))) := by
  have hl := h.loc i
  rw [hi] at hl
  have hc7 : upd cnt i (cnt i + 1) 7 = 0 := by simp [h7.symm, h.c7]
  have hcne : ∀ j, j ≠ i → upd cnt i (cnt i + 1) j = cnt j := fun j e => by simp [e]
  simp only [Fs.openExisting]
  split
  · exact .inl ⟨_, rfl, by simp⟩
  · simp only [hi]
    cases hk : nd.kind with
    | sock => exact .inl ⟨_, rfl, by simp⟩
    | file =>
      simp only [LocalAt, hk] at hl
      obtain ⟨⟨d, hd1, hd2⟩, hfo, href, hal⟩ := hl
      simp only
      split
      · simp only [hd1]
        refine .inr ⟨_, _, rfl, ?_⟩
        refine h.attr (nd' := { nd with size := 0, ref := nd.ref + 1 }) hi rfl
          (by simp [Fs.set, Fs.openObj, Fs.rmHost, hk]) (by simp [Fs.set, Fs.openObj, Fs.rmHost])
          (fun j e => by simp [Fs.set, Fs.openObj, Fs.rmHost, e])
          (fun j e => by simp [Fs.set, Fs.openObj, Fs.rmHost, e]) hcne hc7 ?_
        simp only [LocalAt, hk, Fs.set, Fs.openObj, Fs.rmHost, upd_same]
        exact ⟨⟨[], by simp, rfl⟩, by simp, by omega, by omega⟩
      · refine .inr ⟨_, _, rfl, ?_⟩
        by_cases hz : nd.ref = 0
        · rw [if_pos hz] at hfo
          refine h.attr (nd' := { nd with ref := nd.ref + 1 }) hi rfl
            (by simp [Fs.set, Fs.openObj, hfo, hk]) (by simp [Fs.set, Fs.openObj, hfo])
            (fun j e => by simp [Fs.set, Fs.openObj, hfo, e])
            (fun j e => by simp [Fs.set, Fs.openObj, hfo, e]) hcne hc7 ?_
          simp only [LocalAt, hk, Fs.set, Fs.openObj, hfo, upd_same, hd1]
          exact ⟨⟨d, rfl, hd2⟩, by simp, by omega, by omega⟩
        · rw [if_neg hz] at hfo
          refine h.attr (nd' := { nd with ref := nd.ref + 1 }) hi rfl
            (by simp [Fs.set, Fs.openObj, hfo, hk]) (by simp [Fs.set, Fs.openObj, hfo])
            (fun j e => by simp [Fs.set, Fs.openObj, hfo])
            (fun j e => by simp [Fs.set, Fs.openObj, hfo]) hcne hc7 ?_
          simp only [LocalAt, hk, Fs.set, Fs.openObj, hfo, upd_same, hd1]
          exact ⟨⟨d, rfl, hd2⟩, by simp, by omega, by omega⟩
    | dir =>
      refine .inr ⟨_, _, rfl, ?_⟩
      refine h.attr (nd' := { nd with ref := nd.ref + 1 }) hi rfl (by simp [Fs.set, hk]) rfl
        (fun _ _ => rfl) (fun _ _ => rfl) hcne hc7 ?_
      simp only [LocalAt, hk, Fs.set, upd_same] at hl ⊢
      exact ⟨hl.1, hl.2.1, by omega⟩
    | chr dev =>
      refine .inr ⟨_, _, rfl, ?_⟩
      refine h.attr (nd' := { nd with ref := nd.ref + 1 }) hi rfl (by simp [Fs.set, hk]) rfl
        (fun _ _ => rfl) (fun _ _ => rfl) hcne hc7 ?_
      simp only [LocalAt, hk, Fs.set, upd_same] at hl ⊢
      exact ⟨hl.1, hl.2.1, by omega, by omega⟩

theorem FsInv.openP {fs : Fs} {cnt} (h : FsInv fs cnt) {p : List Name} (hp : GoodPath p)
    (flags mode : BitVec 32) :
    (∃ r, fs.openP p flags mode = (fs, .failed r) ∧ r ≠ .panic) ∨
    (∃ fs' i sz, fs.openP p flags mode = (fs', .opened i sz) ∧ FsInv fs' (upd cnt i (cnt i + 1))) := by
  obtain ⟨r, hr, hlook⟩ := look h.tree p hp
  simp only [Fs.openP, hr]
  cases hlook with
  | root =>
    obtain ⟨nd, h1, -⟩ := h.tree.root
    rcases h.openExisting h1 (by decide) flags with h' | ⟨fs', sz, h'⟩
    · exact .inl h'
    · exact .inr ⟨fs', _, sz, h'⟩
  | found heq w w' hpar hd hl hf hg hi h1 h7 hne =>
    rcases h.openExisting hi h7 flags with h' | ⟨fs', sz, h'⟩
    · exact .inl h'
    · exact .inr ⟨fs', _, sz, h'⟩
  | gone => exact .inl ⟨_, rfl, by simp⟩
  | free heq w hpar hd hl hf hg hno =>
    rename_i par ps n pd
    simp only
    split
    · exact .inl ⟨_, rfl, by simp⟩
    split
    · exact .inl ⟨_, rfl, by simp⟩
    split
    · exact .inl ⟨_, rfl, by simp⟩
    subst heq
    simp only [getLast_snoc]
    obtain ⟨fs', g0, g1, g2, g3, g4, -⟩ := create_eq n (fun _ => newFile mode) hpar hd
    simp only [g0]
    refine .inr ⟨_, _, _, rfl, ?_⟩
    obtain ⟨-, n2, n3, n4⟩ := h.next_none
    have hnone : fs'.fobj fs.next = none := by rw [g3, n2]
    have hdnone : fs'.disk fs.next = none := by rw [g4, n3]
    refine h.create hpar hd hl hg hf (fs' := fs'.openObj fs.next 0) (nd0 := newFile mode)
      (by simp only [Fs.openObj, hnone]; exact g1) (by simp only [Fs.openObj, hnone]; exact g2)
      (.inl ⟨rfl, rfl, rfl⟩)
      (fun j e => by simp [Fs.openObj, hnone, e, g3]) (fun j e => by simp [Fs.openObj, hnone, e, g4])
      (fun j e => by simp [e]) ?_
    simp [LocalAt, newFile, Fs.openObj, hnone, hdnone, n4]

/-! ## link, unlink, rmdir, rename -/

theorem FsInv.link {fs : Fs} {cnt} (h : FsInv fs cnt) {old new : List Name} (ho : GoodPath old)
    (hn : GoodPath new) :
    FsInv (fs.link old new).1 cnt ∧ ((fs.link old new).2 = .panic → new = []) := by
  cases hlast : new.getLast? with
  | none =>
    simp only [Fs.link, hlast]
    exact ⟨h, fun _ => by simpa using hlast⟩
  | some name =>
    obtain ⟨r, hr, hlook⟩ := look h.tree old ho
    simp only [Fs.link, hlast, hr]
    cases hlook with
    | gone => exact ⟨h, by simp⟩
    | free => exact ⟨h, by simp⟩
    | root =>
      obtain ⟨nd, h1, h2⟩ := h.tree.root
      simp only [h1, h2, if_true]
      exact ⟨h, by simp⟩
    | found heq w w' hpar hd hl hf hg hi h1 h7 hne =>
      rename_i i par ps n pd nd
      simp only [hi]
      cases hnd : nd.isDir with
      | true => simp only [if_true]; exact ⟨h, by simp⟩
      | false =>
        simp only [Bool.false_eq_true, if_false, walk_set hi (nd' := { nd with link := nd.link + 1 }) rfl rfl]
        have hundo : (fs.set i (some { nd with link := nd.link + 1 })).set i
            (some { nd with link := nd.link + 1 - 1 }) = fs := by
          simp only [Fs.set, upd_upd, Nat.add_sub_cancel]
          have : upd fs.inodes i (some nd) = fs.inodes := by rw [← hi]; exact upd_self _ _
          rw [this]
        obtain ⟨r2, hr2, hlook2⟩ := look h.tree new hn
        simp only [hr2]
        cases hlook2 with
        | gone => simp only [hundo]; exact ⟨h, by simp⟩
        | root => simp only [hundo]; exact ⟨h, by simp⟩
        | found => simp only [hundo]; exact ⟨h, by simp⟩
        | free heq2 w2 hpar2 hd2 hl2 hf2 hg2 hno2 =>
          rename_i par2 ps2 n2 pd2
          subst heq2
          rw [getLast_snoc] at hlast
          cases hlast
          have hne2 : par2 ≠ i := by
            rintro rfl; rw [hi] at hpar2; cases hpar2; rw [hd2] at hnd; cases hnd
          have hset : (fs.set i (some { nd with link := nd.link + 1 })).inodes par2 = some pd2 := by
            simp [Fs.set, hne2, hpar2]
          simp only [hset, hd2, if_true]
          refine ⟨⟨?_, ?_, h.c7⟩, by simp⟩
          · exact h.tree.addLink hpar2 hd2 hl2 hg2 hf2 hi hnd h7 h1
              (nd' := { nd with link := nd.link + 1 }) ⟨rfl, rfl, rfl⟩
              (pd' := { pd2 with ents := entPut pd2.ents name i, link := pd2.link + 1 }) ⟨rfl, rfl, rfl⟩
          · intro j
            simp only [Fs.logIno, Fs.set, upd_apply]
            have hlj := h.loc j
            by_cases e : j = par2
            · subst e
              rw [hpar2] at hlj
              simp only [if_true, LocalAt, isDir_iff.1 hd2] at hlj ⊢
              exact hlj
            · rw [if_neg e]
              by_cases e' : j = i
              · subst e'
                rw [hi] at hlj
                simp only [if_true, LocalAt] at hlj ⊢
                cases hk : nd.kind <;> simp only [hk] at hlj ⊢
                · exact ⟨hlj.1, hlj.2.1, hlj.2.2.1, by omega⟩
                · exact hlj
                · exact ⟨hlj.1, hlj.2.1, hlj.2.2.1, by omega⟩
                · exact hlj
              · rw [if_neg e']; exact hlj

/-- unlink's parent directory is writable. -/
def UnlinkTame (fs : Fs) (p : List Name) : Prop :=
  ∀ i par pd, fs.walk p = some (some i, some par) → fs.inodes par = some pd → pd.mode &&& sIWALL ≠ 0

theorem FsInv.unlink {fs : Fs} {cnt} (h : FsInv fs cnt) {p : List Name} (hp : GoodPath p)
    (ht : UnlinkTame fs p) :
    FsInv (fs.unlink p).1 cnt ∧ (fs.unlink p).2 ≠ .panic := by
  obtain ⟨r, hr, hlook⟩ := look h.tree p hp
  simp only [Fs.unlink, hr]
  cases hlook with
  | root => exact ⟨h, by simp⟩
  | gone => exact ⟨h, by simp⟩
  | free => exact ⟨h, by simp⟩
  | found heq w w' hpar hd hl hf hg hi h1 h7 hne =>
    rename_i i par ps n pd nd
    have hw := ht i par pd hr hpar
    simp only [hi]
    cases hnd : nd.isDir with
    | true => simp only [if_true]; exact ⟨h, by simp⟩
    | false =>
      subst heq
      have hset : (fs.set i (some { nd with link := nd.link - 1 })).inodes par = some pd := by
        simp [Fs.set, hne.symm, hpar]
      simp only [Bool.false_eq_true, if_false, Fs.removeFromParent, hset, hd, if_true, hw, getLast_snoc, hf]
      have hT := h.tree.delEntry hpar hd hl (Good.proper hg) hf hi
        (nd' := { nd with link := nd.link - 1 }) rfl rfl (.inl ⟨hnd, rfl⟩)
        (pd' := { pd with ents := entDel pd.ents n, link := pd.link - 1 }) ⟨rfl, rfl, rfl⟩
      have hli := h.loc i
      rw [hi] at hli
      -- the table once the entry is gone
      generalize hfs2 : (fs.set i (some { nd with link := nd.link - 1 })).set par
        (some { pd with ents := entDel pd.ents n, link := pd.link - 1 }) = fs2
      have f1 : fs2.inodes = upd (upd fs.inodes i (some { nd with link := nd.link - 1 })) par
        (some { pd with ents := entDel pd.ents n, link := pd.link - 1 }) := by subst hfs2; rfl
      have f2 : fs2.next = fs.next := by subst hfs2; rfl
      have f3 : fs2.fobj = fs.fobj := by subst hfs2; rfl
      have f4 : fs2.disk = fs.disk := by subst hfs2; rfl
      have hother : ∀ j, j ≠ i → LocalAt (fs2.inodes j) (fs2.fobj j) (fs2.disk j) (cnt j) := by
        intro j e
        rw [f1, f3, f4]
        have hlj := h.loc j
        by_cases e' : j = par
        · subst e'
          rw [hpar] at hlj
          rw [upd_same]
          simp only [LocalAt, isDir_iff.1 hd] at hlj ⊢
          exact hlj
        · rw [upd_ne _ _ e', upd_ne _ _ e]; exact hlj
      have fi : fs2.inodes i = some { nd with link := nd.link - 1 } := by rw [f1]; simp [hne]
      rw [← f1, ← f2] at hT
      have hdir2 : ({ nd with link := nd.link - 1 } : Inode).isDir = false := hnd
      by_cases hz : nd.link - 1 = 0 ∧ nd.ref = 0
      · -- the inode goes away
        simp only [hz, and_self, if_true]
        have hT2 : Tree (upd fs2.inodes i none) fs2.next := hT.remove fi h1
          (by rw [← hT.flink fi hdir2]; exact hz.1) (by rw [hT.leaf fi hdir2]; simp)
        have hfin : ∀ fs3 : Fs, fs3.inodes = upd fs2.inodes i none → fs3.next = fs2.next →
            (∀ j, j ≠ i → fs3.fobj j = fs2.fobj j) → (∀ j, j ≠ i → fs3.disk j = fs2.disk j) →
            fs3.fobj i = none → fs3.disk i = none → cnt i = 0 → FsInv fs3 cnt := by
          intro fs3 a1 a2 a3 a4 a5 a6 a7
          refine ⟨by rw [a1, a2]; exact hT2, ?_, h.c7⟩
          intro j
          by_cases e : j = i
          · subst e; rw [a1, upd_same]; exact ⟨a5, a6, a7⟩
          · rw [a1, upd_ne _ _ e, a3 j e, a4 j e]; exact hother j e
        cases hk : nd.kind with
        | dir => simp [Inode.isDir, hk] at hnd
        | file =>
          simp only [LocalAt, hk, hz.2, if_true] at hli
          obtain ⟨⟨d, hd1, hd2⟩, hfo, href, hal⟩ := hli
          have a : nd.isFile = true := isFile_iff.2 hk
          have b : nd.isSock = false := by simp [Inode.isSock, hk]
          simp only [a, if_true, b, f4, hd1, reduceCtorEq, and_false, if_false, Bool.false_eq_true]
          refine ⟨hfin _ rfl rfl (fun _ _ => rfl) (fun j e => by simp [Fs.logIno, Fs.rmHost, Fs.set, e]) ?_ ?_ ?_, by simp⟩
          · simp [Fs.logIno, Fs.rmHost, Fs.set, f3, hfo]
          · simp [Fs.logIno, Fs.rmHost, Fs.set]
          · omega
        | chr dev =>
          simp only [LocalAt, hk] at hli
          obtain ⟨hfo, hdk, href, hal⟩ := hli
          have a : nd.isFile = false := by simp [Inode.isFile, hk]
          have b : nd.isSock = false := by simp [Inode.isSock, hk]
          simp only [a, b, if_false, Bool.false_eq_true, false_and]
          refine ⟨hfin _ rfl rfl (fun _ _ => rfl) (fun _ _ => rfl) ?_ ?_ ?_, by simp⟩
          · simp [Fs.logIno, Fs.set, f3, hfo]
          · simp [Fs.logIno, Fs.set, f4, hdk]
          · omega
        | sock =>
          simp only [LocalAt, hk] at hli
          obtain ⟨hfo, hdk, href⟩ := hli
          have a : nd.isFile = false := by simp [Inode.isFile, hk]
          have b : nd.isSock = true := isSock_iff.2 hk
          simp only [a, b, if_false, if_true, Bool.false_eq_true, false_and]
          refine ⟨hfin _ rfl rfl (fun _ _ => rfl) (fun _ _ => rfl) ?_ ?_ ?_, by simp⟩
          · simp [Fs.set, f3, hfo]
          · simp [Fs.set, f4, hdk]
          · omega
      · have hz' : ¬ (nd.isFile = true ∧ nd.link - 1 = 0 ∧ nd.ref = 0 ∧ fs2.disk i = none) :=
          fun x => hz ⟨x.2.1, x.2.2.1⟩
        have hli2 : LocalAt (fs2.inodes i) (fs2.fobj i) (fs2.disk i) (cnt i) := by
          rw [fi, f3, f4]
          simp only [LocalAt] at hli ⊢
          cases hk : nd.kind <;> simp only [hk] at hli ⊢
          · exact ⟨hli.1, hli.2.1, hli.2.2.1, by omega⟩
          · exact hli
          · exact ⟨hli.1, hli.2.1, hli.2.2.1, by omega⟩
          · exact hli
        have hfin : FsInv fs2 cnt := ⟨hT, fun j => by
          by_cases e : j = i
          · subst e; exact hli2
          · exact hother j e, h.c7⟩
        simp only [hz, hz', if_false]
        split
        · exact ⟨hfin.log rfl rfl rfl rfl, by simp⟩
        · exact ⟨hfin.log rfl rfl rfl rfl, by simp⟩

/-- A directory with link count at most 3 has only `.` and `..`. -/
theorem empty_of_link {ino next} (h : Tree ino next) {i : Nat} {nd : Inode} (hi : ino i = some nd)
    (hd : nd.isDir) (h7 : i ≠ 7) (hl : nd.link ≤ 3) : ∀ n j, (n, j) ∈ nd.ents → ¬ Proper n := by
  intro n j hm hp
  obtain ⟨g1, p, g2, -⟩ := h.dots hi hd h7
  have hlk := h.dlink hi hd h7
  have m1 := entGet_mem g1
  have m2 := entGet_mem g2
  have hnd := h.nodup hi
  have l1 := entDel_length hnd g1
  have hnd1 := entDel_nodup (n := dot) hnd
  have l2 := entDel_length (n := dotdot) hnd1 (i := p)
    ((entGet_iff hnd1).2 (mem_entDel.2 ⟨m2, by decide⟩))
  have l3 : (n, j) ∈ entDel (entDel nd.ents dot) dotdot :=
    mem_entDel.2 ⟨mem_entDel.2 ⟨hm, hp.1⟩, hp.2⟩
  have := List.length_pos_of_mem l3
  omega

theorem nameCount_one_dir {ino next} (h : Tree ino next) {par i : Nat} {pd nd : Inode} {n : Name}
    (hp : ino par = some pd) (hm : (n, i) ∈ pd.ents) (hpn : Proper n) (hi : ino i = some nd)
    (hd : nd.isDir) : nameCount ino next i = 1 := by
  have hother : ∀ d x m, ino d = some x → (m, i) ∈ x.ents → Proper m → d = par := by
    intro d x m a b c
    obtain ⟨-, -, -, jd, e1, e2⟩ := h.ent a b c
    obtain ⟨-, -, -, jd', e1', e2'⟩ := h.ent hp hm hpn
    rw [hi] at e1 e1'; cases e1; cases e1'
    have := (e2 hd).1
    rw [(e2' hd).1] at this; cases this; rfl
  have hb := h.bound hp
  have hnm : nm pd.ents i = 1 := by
    have hnd := h.nodup hp
    have := nm_entDel hnd ((entGet_iff hnd).2 hm) hpn i
    rw [if_pos rfl] at this
    have hz : nm (entDel pd.ents n) i = 0 := by
      apply Classical.byContradiction
      intro hne
      obtain ⟨m, m1, m2⟩ := nm_pos.1 (Nat.pos_of_ne_zero hne)
      rw [mem_entDel] at m1
      exact m1.2 (h.one hp m1.1 hm m2 hpn hi hd)
    omega
  have hz : sumTo (fun d => if d = par then 0 else namesIn ino i d) next = 0 := by
    apply sumTo_zero
    intro d _
    split
    · rfl
    · rename_i hne
      simp only [namesIn]
      split
      · rfl
      · rename_i x hx
        apply Classical.byContradiction
        intro hne'
        obtain ⟨m, m1, m2⟩ := nm_pos.1 (Nat.pos_of_ne_zero hne')
        exact hne (hother d x m hx m1 m2)
  have := sumTo_upd (f := namesIn ino i) (g := fun d => if d = par then 0 else namesIn ino i d) hb
    (fun j hj => by simp [hj])
  simp only [if_true, hz] at this
  have e : namesIn ino i par = nm pd.ents i := by simp only [namesIn, hp]
  show sumTo _ _ = 1
  omega

theorem FsInv.rmdir {fs : Fs} {cnt} (h : FsInv fs cnt) {p : List Name} (hp : GoodPath p) :
    FsInv (fs.rmdir p).1 cnt := by
  obtain ⟨r, hr, hlook⟩ := look h.tree p hp
  simp only [Fs.rmdir, hr]
  cases hlook with
  | root => exact h
  | gone => exact h
  | free => exact h
  | found heq w w' hpar hd hl hf hg hi h1 h7 hne =>
    rename_i i par ps n pd nd
    simp only [hpar]
    by_cases hw : pd.mode &&& sIWALL = 0
    · simp only [hd, hw, and_self, if_true]; exact h
    · simp only [hw, and_false, if_false, hi]
      cases hnd : nd.isDir with
      | false => simp only [Bool.false_eq_true, if_false]; exact h
      | true =>
        simp only [if_true]
        split
        · exact h
        split
        · exact h
        split
        · exact h
        rename_i hlink hmode hwn
        subst heq
        have hempty := empty_of_link h.tree hi hnd h7 (by omega)
        have hset : ∀ x, (if nd.ref = 0 then fs.set i x else fs).inodes par = some pd := by
          intro x; split
          · simp [Fs.set, hne.symm, hpar]
          · exact hpar
        simp only [Fs.removeFromParent, hset, hd, if_true, hw, if_false, getLast_snoc, hf]
        have hT := h.tree.delEntry hpar hd hl (Good.proper hg) hf hi
          (nd' := nd) rfl rfl (.inr ⟨hnd, rfl, hempty⟩)
          (pd' := { pd with ents := entDel pd.ents n, link := pd.link - 1 }) ⟨rfl, rfl, rfl⟩
        have hsame : upd fs.inodes i (some nd) = fs.inodes := by rw [← hi]; exact upd_self _ _
        rw [hsame] at hT
        have hli := h.loc i
        rw [hi] at hli
        simp only [LocalAt, isDir_iff.1 hnd] at hli
        have hother : ∀ j, LocalAt (upd fs.inodes par
            (some { pd with ents := entDel pd.ents n, link := pd.link - 1 }) j) (fs.fobj j) (fs.disk j) (cnt j) := by
          intro j
          have hlj := h.loc j
          by_cases e' : j = par
          · subst e'
            rw [hpar] at hlj
            rw [upd_same]
            simp only [LocalAt, isDir_iff.1 hd] at hlj ⊢
            exact hlj
          · rw [upd_ne _ _ e']; exact hlj
        by_cases hz : nd.ref = 0
        · simp only [hz, if_true]
          have hi' : upd fs.inodes par (some { pd with ents := entDel pd.ents n, link := pd.link - 1 }) i
              = some nd := by simp [hne, hi]
          have hone := nameCount_one_dir h.tree hpar (entGet_mem hf) (Good.proper hg) hi hnd
          have hcz : nameCount (upd fs.inodes par
              (some { pd with ents := entDel pd.ents n, link := pd.link - 1 })) fs.next i = 0 := by
            have e1 := nameCount_upd (o := some { pd with ents := entDel pd.ents n, link := pd.link - 1 })
              (h.tree.bound hpar) hpar i
            have e2 := nm_entDel (h.tree.nodup hpar) hf (Good.proper hg) i
            simp only [if_true] at e1 e2
            omega
          have hT2 := hT.remove hi' h1 hcz hempty
          have heq : ∀ x, upd (upd (upd fs.inodes i x) par
              (some { pd with ents := entDel pd.ents n, link := pd.link - 1 })) i none
              = upd (upd fs.inodes par (some { pd with ents := entDel pd.ents n, link := pd.link - 1 })) i none := by
            intro x; funext j; simp only [upd_apply]; split
            · rfl
            · split <;> rfl
          refine ⟨?_, ?_, h.c7⟩
          · simp only [Fs.logIno, Fs.set, heq]; exact hT2
          · intro j
            simp only [Fs.logIno, Fs.set, heq]
            by_cases e : j = i
            · subst e; rw [upd_same]; exact ⟨hli.1, hli.2.1, by omega⟩
            · rw [upd_ne _ _ e]; exact hother j
        · simp only [hz, if_false]
          exact ⟨hT, hother, h.c7⟩

/-- rename to a free name. -/
def RenameTame (fs : Fs) (new : List Name) : Prop :=
  ∀ i par, fs.walk new ≠ some (some i, par)

theorem FsInv.rename {fs : Fs} {cnt} (h : FsInv fs cnt) {old new : List Name} (ho : GoodPath old)
    (hn : GoodPath new) (ht : RenameTame fs new) :
    FsInv (fs.rename old new).1 cnt ∧ (fs.rename old new).2 ≠ .panic := by
  obtain ⟨r, hr, hlook⟩ := look h.tree old ho
  obtain ⟨r2, hr2, hlook2⟩ := look h.tree new hn
  simp only [Fs.rename, hr]
  cases hlook with
  | root => exact ⟨h, by simp⟩
  | gone => exact ⟨h, by simp⟩
  | free => exact ⟨h, by simp⟩
  | found heq w w' hpar hd hl hf hg hi h1 h7 hne =>
    rename_i i par ps n pd nd
    simp only [hr2]
    cases hlook2 with
    | root => exact absurd hr2 (ht _ _)
    | found => exact absurd hr2 (ht _ _)
    | gone => simp only [ne_eq, reduceCtorEq, not_false_eq_true, if_true]; exact ⟨h, by simp⟩
    | free heq2 w2 hpar2 hd2 hl2 hf2 hg2 hno2 =>
      rename_i par2 ps2 n2 pd2
      simp only [ne_eq, Option.some.injEq]
      by_cases e : par2 = par
      · subst e
        rw [hpar] at hpar2; cases hpar2
        subst heq heq2
        simp only [not_true_eq_false, if_false, hpar, getLast_snoc, hd, if_true]
        refine ⟨⟨?_, ?_, h.c7⟩, by simp⟩
        · exact h.tree.rename hpar hd hl (Good.proper hg) hg2 hf hf2
            (pd' := { pd with ents := entDel (entPut pd.ents n2 i) n }) ⟨rfl, rfl, rfl⟩
        · intro j
          simp only [Fs.logIno, Fs.set]
          have hlj := h.loc j
          by_cases e' : j = par2
          · subst e'
            rw [hpar] at hlj
            rw [upd_same]
            simp only [LocalAt, isDir_iff.1 hd] at hlj ⊢
            exact hlj
          · rw [upd_ne _ _ e']; exact hlj
      · simp only [e, not_false_eq_true, if_true]
        exact ⟨h, by simp⟩

/-! ## File data -/

theorem overwrite_length (d : List UInt8) (off : Nat) (data : List UInt8) (h : off ≤ d.length) :
    (overwrite d off data).length = max d.length (off + data.length) := by
  simp only [overwrite]
  split
  · rename_i e; subst e; simp; omega
  · simp; omega

/-- The data of an open file after `writeIno`. -/
theorem writeIno_eq {fs : Fs} {i : Nat} {nd : Inode} {d : List UInt8}
    (hd : fs.disk i = some d) (hlen : d.length = nd.size)
    (hfo : fs.fobj i = some nd.size) (off : Nat) (data : List UInt8) :
    ∃ fs', fs.writeIno i nd off data = some fs' ∧
      fs'.inodes = (if off + data.length > nd.size then
        upd fs.inodes i (some { nd with size := off + data.length }) else fs.inodes) ∧
      fs'.next = fs.next ∧
      fs'.fobj = upd fs.fobj i (some (max nd.size (off + data.length))) ∧
      fs'.disk = upd fs.disk i (some (overwrite (d ++ List.replicate (off - nd.size) 0) off data)) ∧
      fs'.dom = fs.dom ∧
      fs'.log = fs.log ++ (if off + data.length > nd.size then [(i, fs'.inodes i)] else []) := by
  simp only [Fs.writeIno]
  by_cases hgap : off > nd.size
  · have hne : List.replicate (off - nd.size) (0 : UInt8) ≠ [] := by simp; omega
    have hov : overwrite d nd.size (List.replicate (off - nd.size) 0)
        = d ++ List.replicate (off - nd.size) 0 := by
      simp only [overwrite, if_neg hne, hlen, Nat.sub_self, List.replicate_zero, List.append_nil]
      rw [← hlen, List.take_length, List.drop_eq_nil_of_le (by omega)]; simp
    simp only [hgap, if_true, Fs.writeAt, hfo, Nat.lt_irrefl, if_false, hd, Option.getD_some, hov,
      upd_same, List.length_replicate, gt_iff_lt]
    rw [if_neg (by omega)]
    simp only [upd_upd]
    have h1 : nd.size < off + data.length := by omega
    rw [if_pos h1]
    refine ⟨_, rfl, ?_, rfl, ?_, rfl, rfl, ?_⟩
    · simp [Fs.logIno, Fs.set, h1]
    · simp only [Fs.logIno, Fs.set]; congr 2; omega
    · simp [Fs.logIno, Fs.set, h1]
  · have h0 : off - nd.size = 0 := by omega
    simp only [hgap, if_false, hfo, Option.isNone_some, Bool.false_eq_true, Fs.writeAt, hd,
      Option.getD_some, h0, List.replicate_zero, List.append_nil]
    split
    · exact ⟨_, rfl, rfl, rfl, rfl, rfl, rfl, by simp [Fs.logIno, Fs.set]⟩
    · exact ⟨_, rfl, rfl, rfl, rfl, rfl, rfl, by simp⟩

theorem FsInv.writeIno {fs fs' : Fs} {cnt} (h : FsInv fs cnt) {i : Nat} {nd : Inode}
    (hi : fs.inodes i = some nd) (hk : nd.kind = .file) (hc : 0 < cnt i) {off : Nat} {data : List UInt8}
    (he : fs.writeIno i nd off data = some fs') : FsInv fs' cnt := by
  have hl := h.loc i
  rw [hi] at hl
  simp only [LocalAt, hk] at hl
  obtain ⟨⟨d, hd1, hd2⟩, hfo, href, hal⟩ := hl
  rw [if_neg (by omega)] at hfo
  obtain ⟨fs'', e0, e1, e2, e3, e4, -⟩ := writeIno_eq hd1 hd2 hfo off data
  rw [he] at e0; cases e0
  have hov : (overwrite (d ++ List.replicate (off - nd.size) 0) off data).length
      = max nd.size (off + data.length) := by
    rw [overwrite_length _ _ _ (by simp; omega)]; simp; omega
  refine h.attr (nd' := { nd with size := max nd.size (off + data.length) }) hi rfl ?_ e2
    (fun j e => by rw [e3, upd_ne _ _ e]) (fun j e => by rw [e4, upd_ne _ _ e]) (fun _ _ => rfl) h.c7 ?_
  · rw [e1]
    split
    · congr 3; omega
    · rename_i hle
      have : max nd.size (off + data.length) = nd.size := by omega
      rw [this]
      show fs.inodes = upd fs.inodes i (some nd)
      rw [← hi, upd_self]
  · simp only [LocalAt, hk, e3, e4, upd_same]
    exact ⟨⟨_, rfl, hov⟩, by rw [if_neg (by omega)], href, hal⟩

/-- The data of a file after `truncIno`. -/
theorem truncIno_eq {fs : Fs} {i : Nat} {nd : Inode} {d : List UInt8} {len : Int}
    (hi : fs.inodes i = some nd) (hk : nd.kind = .file)
    (hd : fs.disk i = some d) (hlen : d.length = nd.size)
    (hfo : fs.fobj i = none ∨ fs.fobj i = some nd.size) (must : Bool)
    (hm : fs.fobj i = none → must = false) (h0 : 0 ≤ len) :
    ∃ fs', fs.truncIno i len must = (fs', .ok 0) ∧
      fs'.inodes = upd fs.inodes i (some { nd with size := len.toNat }) ∧ fs'.next = fs.next ∧
      fs'.fobj = (if fs.fobj i = none then fs.fobj else upd fs.fobj i (some len.toNat)) ∧
      fs'.disk = upd fs.disk i (some (d.take len.toNat ++ List.replicate (len.toNat - d.length) 0)) ∧
      fs'.dom = fs.dom ∧
      fs'.log = fs.log ++ [(i, fs'.inodes i)] := by
  simp only [Fs.truncIno, if_neg (Int.not_lt.2 h0), hi, hk]
  generalize hn : len.toNat = n
  have hopen : ∃ fs1, fs.openObj i nd.size = fs1 ∧ fs1.inodes = fs.inodes ∧ fs1.next = fs.next ∧
      fs1.disk = fs.disk ∧ fs1.fobj = upd fs.fobj i (some nd.size) ∧ fs1.dom = fs.dom ∧ fs1.log = fs.log := by
    refine ⟨_, rfl, ?_⟩
    rcases hfo with h | h
    · simp only [Fs.openObj, h]
      simp only [hd, Option.getD_some, true_and, and_true]; rw [← hd, upd_self]
    · simp only [Fs.openObj, h]
      refine ⟨trivial, trivial, trivial, ?_, trivial, trivial⟩
      rw [← h, upd_self]
  obtain ⟨fs1, e0, e1, e2, e3, e4, e5, e6⟩ := hopen
  have hmust : ¬ ((fs.fobj i).isNone = true ∧ must = true) := by
    rintro ⟨a, b⟩
    rw [hm (by simpa using a)] at b; cases b
  rw [if_neg hmust, e0]
  have hback : ∀ k, (if (fs.fobj i).isNone = true then upd fs.fobj i none
      else upd fs.fobj i (some k)) = (if fs.fobj i = none then fs.fobj else upd fs.fobj i (some k)) := by
    intro k
    rcases hfo with h | h
    · simp only [h, Option.isNone_none, if_true]; rw [← h, upd_self]
    · simp [h]
  by_cases hgrow : nd.size < n
  · have hne : List.replicate (n - nd.size) (0 : UInt8) ≠ [] := by simp; omega
    have hov : overwrite d nd.size (List.replicate (n - nd.size) 0)
        = d.take n ++ List.replicate (n - d.length) 0 := by
      simp only [overwrite, if_neg hne, hlen, Nat.sub_self, List.replicate_zero, List.append_nil]
      rw [← hlen, List.take_length, List.drop_eq_nil_of_le (by omega),
        List.take_of_length_le (by omega)]; simp
    simp only [if_pos hgrow, Fs.writeAt, e4, upd_same, Nat.lt_irrefl, if_false, gt_iff_lt, e3, hd,
      Option.getD_some, hov, List.length_replicate, upd_upd]
    refine ⟨_, rfl, ?_, ?_, ?_, ?_, ?_, ?_⟩
    · simp only [Fs.logIno, Fs.set, e1]
    · simp only [Fs.logIno, Fs.set, e2]
    · have : max nd.size (nd.size + (n - nd.size)) = n := by omega
      simp only [Fs.logIno, Fs.set, this]
      exact hback n
    · simp only [Fs.logIno, Fs.set]
    · simp only [Fs.logIno, Fs.set, e5]
    · simp only [Fs.logIno, Fs.set, e6]
  · simp only [if_neg hgrow, e4, upd_same, gt_iff_lt, e3, hd, Option.getD_some, upd_upd]
    refine ⟨_, rfl, ?_, ?_, ?_, ?_, ?_, ?_⟩
    · simp only [Fs.logIno, Fs.set, e1]
    · simp only [Fs.logIno, Fs.set, e2]
    · simp only [Fs.logIno, Fs.set]; exact hback n
    · have : n - d.length = 0 := by omega
      simp only [Fs.logIno, Fs.set, this, List.replicate_zero, List.append_nil]
    · simp only [Fs.logIno, Fs.set, e5]
    · simp only [Fs.logIno, Fs.set, e6]

theorem FsInv.truncIno {fs : Fs} {cnt} (h : FsInv fs cnt) (i : Nat) (len : Int) (must : Bool)
    (hm : must = true → 0 < cnt i) (hx : ∃ nd, fs.inodes i = some nd) :
    FsInv (fs.truncIno i len must).1 cnt ∧ (fs.truncIno i len must).2 ≠ .panic := by
  obtain ⟨nd, hi⟩ := hx
  by_cases h0 : len < 0
  · simp only [Fs.truncIno, if_pos h0]; exact ⟨h, by simp⟩
  · have hl := h.loc i
    rw [hi] at hl
    cases hk : nd.kind with
    | dir => simp only [Fs.truncIno, if_neg h0, hi, hk]; exact ⟨h, by simp⟩
    | sock => simp only [Fs.truncIno, if_neg h0, hi, hk]; exact ⟨h, by simp⟩
    | chr => simp only [Fs.truncIno, if_neg h0, hi, hk]; exact ⟨h, by simp⟩
    | file =>
      simp only [LocalAt, hk] at hl
      obtain ⟨⟨d, hd1, hd2⟩, hfo, href, hal⟩ := hl
      obtain ⟨fs', e0, e1, e2, e3, e4, -⟩ := truncIno_eq (len := len) hi hk hd1 hd2
        (by split at hfo <;> simp [hfo]) must (by
          intro hn
          cases must with
          | false => rfl
          | true => have := hm rfl; rw [hn, if_neg (by omega)] at hfo; cases hfo) (by omega)
      rw [e0]
      refine ⟨?_, by simp⟩
      refine h.attr (nd' := { nd with size := len.toNat }) hi rfl e1 e2
        (fun j e => by rw [e3]; split <;> simp [e]) (fun j e => by rw [e4, upd_ne _ _ e])
        (fun _ _ => rfl) h.c7 ?_
      simp only [LocalAt, hk, e3, e4, upd_same]
      refine ⟨⟨_, rfl, by simp; omega⟩, ?_, href, hal⟩
      rw [hfo]
      split <;> simp_all

theorem FsInv.truncate {fs : Fs} {cnt} (h : FsInv fs cnt) {p : List Name} (hp : GoodPath p) (len : Int) :
    FsInv (fs.truncate p len).1 cnt ∧ (fs.truncate p len).2 ≠ .panic := by
  obtain ⟨r, hr, hlook⟩ := look h.tree p hp
  simp only [Fs.truncate, hr]
  cases hlook with
  | gone => exact ⟨h, by simp⟩
  | free => exact ⟨h, by simp⟩
  | root =>
    obtain ⟨nd, h1, -⟩ := h.tree.root
    exact h.truncIno _ _ _ (by simp) ⟨nd, h1⟩
  | found heq w w' hpar hd hl hf hg hi h1 h7 hne =>
    exact h.truncIno _ _ _ (by simp) ⟨_, hi⟩

end Verif.Fs
