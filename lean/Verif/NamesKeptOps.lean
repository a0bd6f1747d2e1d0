import Verif.NamesKept

/-!
# Which entries the calls that name things add and remove
-/

namespace Verif.Kernel
open Verif.Path Verif.Fs Verif.Pipe

/-- What is in both tables has the same kind, and entries of `a` are in `b`, but those of `P`. -/
structure Lost (a b : Nat → Option Inode) (P : Nat → Name → Prop) : Prop where
  get : ∀ d nd nd', a d = some nd → b d = some nd' → nd'.kind = nd.kind ∧ ∀ m j, (m, j) ∈ nd.ents → ¬ P d m → (m, j) ∈ nd'.ents

theorem Lost.refl (a : Nat → Option Inode) (P) : Lost a a P := ⟨fun d nd nd' h h' => by rw [h] at h'; cases h'; exact ⟨rfl, fun _ _ h _ => h⟩⟩

theorem Lost.mono {a b : Nat → Option Inode} {P Q : Nat → Name → Prop} (h : Lost a b P) (hq : ∀ d m, P d m → Q d m) : Lost a b Q :=
  ⟨fun d nd nd' h1 h2 => ⟨(h.get d nd nd' h1 h2).1, fun m j hm hn => (h.get d nd nd' h1 h2).2 m j hm fun hp => hn (hq d m hp)⟩⟩

theorem Thin.lost {a b : Nat → Option Inode} (h : Thin a b) (P) : Lost a b P ∧ Lost b a P := by
  constructor
  · refine ⟨fun d nd nd' h1 h2 => ?_⟩
    obtain ⟨x, h3, h4, h5⟩ := h.get d nd' h2
    rw [h1] at h3; cases h3
    exact ⟨h4, fun m j hm _ => by rw [h5]; exact hm⟩
  · refine ⟨fun d nd nd' h1 h2 => ?_⟩
    obtain ⟨x, h3, h4, h5⟩ := h.get d nd h1
    rw [h2] at h3; cases h3
    exact ⟨h4.symm, fun m j hm _ => by rw [← h5]; exact hm⟩

/-- `m` in directory `d` is the last name of one of these paths. -/
def Last (a : Nat → Option Inode) (L : List (List Name)) (d : Nat) (m : Name) : Prop :=
  ∃ ps, ps ++ [m] ∈ L ∧ Walk a rootIno ps d

/-- A path is carried from one table to the other, if its entries are. -/
theorem carry {a b : Nat → Option Inode} {nb : Nat} {P : Nat → Name → Prop} (Tb : Tree b nb) (hL : Lost a b P) {ns : List Name}
    (hg : GoodPath ns)
    (hP : ∀ qs d m rest nd nd', ns = qs ++ m :: rest → Walk a rootIno qs d → Walk b rootIno qs d → a d = some nd → nd.isDir → b d = some nd' →
      nd'.isDir → ¬ P d m) {k : Nat} (hw : Walk a rootIno ns k) : Walk b rootIno ns k := by
  have aux : ∀ (rest : List Name) (qs : List Name) (d : Nat) (nd' : Inode), ns = qs ++ rest → Walk a rootIno qs d → Walk b rootIno qs d →
      b d = some nd' → Walk a d rest k → Walk b d rest k := by
    intro rest
    induction rest with
    | nil => intro qs d nd' _ _ _ _ h; cases h; exact .here _
    | cons m rest ih =>
      intro qs d nd' he wa wb hb h
      cases h with
      | @down _ j _ _ _ nd h1 h2 h3 h4 =>
        obtain ⟨hk, hm⟩ := hL.get d nd nd' h1 hb
        have h2' : nd'.isDir := by rw [isDir_iff, hk]; exact isDir_iff.1 h2
        have h3' := hm m j h3 (hP qs d m rest nd nd' he wa wb h1 h2 hb h2')
        have hgm : Good m := hg m (by rw [he]; simp)
        obtain ⟨-, -, -, jd, hj, -⟩ := Tb.ent hb h3' (Good.proper hgm)
        exact .down hb h2' h3' (ih (qs ++ [m]) j jd (by rw [he]; simp) (wa.snoc h1 h2 h3) (wb.snoc hb h2' h3') hj h4)
  obtain ⟨rd, hr, -⟩ := Tb.root
  exact aux ns [] rootIno rd rfl (.here _) (.here _) hr hw

theorem prefix_of_last {t : Nat → Option Inode} {next : Nat} (T : Tree t next) {L : List (List Name)} (hL : ∀ p ∈ L, GoodPath p) {ns qs rest : List Name}
    (hg : GoodPath ns) {d : Nat} {m : Name} {nd : Inode} (he : ns = qs ++ m :: rest) (hw : Walk t rootIno qs d) (h1 : t d = some nd) (h2 : nd.isDir)
    (hl : Last t L d m) : ∃ p ∈ L, p <+: ns := by
  obtain ⟨ps, hp, wp⟩ := hl
  have : qs = ps := FsTools.dir_path_unique T qs.length rfl hw wp (fun n hn => Good.proper (hg n (by rw [he]; simp [hn])))
    (fun n hn => Good.proper (hL _ hp n (by simp [hn]))) h1 h2
  subst this
  exact ⟨_, hp, ⟨rest, by rw [he]; simp⟩⟩

/-! ## Making -/

variable {fs : Fs} {cnt : Nat → Nat}

theorem lost_create (h : FsInv fs cnt) {par : Nat} {pd : Inode} {p ps : List Name} {name : Name} (he : p = ps ++ [name])
    (hw : Walk fs.inodes rootIno ps par) (hp : fs.inodes par = some pd) (hd : pd.isDir) (hn : entGet pd.ents name = none) (nd : Nat → Inode) :
    ∃ fs', fs.create par name nd = some fs' ∧ Lost fs.inodes fs'.inodes (fun _ _ => False) ∧ Lost fs'.inodes fs.inodes (Last fs.inodes [p]) := by
  obtain ⟨fs', e, e1, -⟩ := create_eq name nd hp hd
  have hnx := h.next_none.1
  have hne : par ≠ fs.next := by rintro rfl; rw [hnx] at hp; cases hp
  refine ⟨fs', e, ?_, ?_⟩
  · refine ⟨fun d x x' h1 h2 => ?_⟩
    have hdn : d ≠ fs.next := by rintro rfl; rw [hnx] at h1; cases h1
    rw [e1, upd_ne _ _ hdn, upd_apply] at h2
    split at h2
    · rename_i hdp; subst hdp
      rw [hp] at h1; cases h1; cases h2
      refine ⟨rfl, fun m j hm _ => mem_entPut.2 (.inr ⟨hm, ?_⟩)⟩
      rintro rfl
      exact entGet_none.1 hn _ hm
    · rw [h1] at h2; cases h2
      exact ⟨rfl, fun _ _ hm _ => hm⟩
  · refine ⟨fun d x' x h2 h1 => ?_⟩
    have hdn : d ≠ fs.next := by rintro rfl; rw [hnx] at h1; cases h1
    rw [e1, upd_ne _ _ hdn, upd_apply] at h2
    split at h2
    · rename_i hdp; subst hdp
      rw [hp] at h1; cases h1; cases h2
      refine ⟨rfl, fun m j hm hl => ?_⟩
      rcases mem_entPut.1 hm with ⟨rfl, -⟩ | ⟨hm, -⟩
      · exact absurd ⟨ps, by rw [he]; simp, hw⟩ hl
      · exact hm
    · rw [h1] at h2; cases h2
      exact ⟨rfl, fun _ _ hm _ => hm⟩

theorem lost_openP (h : FsInv fs cnt) {p : List Name} (hp : GoodPath p) (flags mode : BitVec 32) :
    Lost fs.inodes (fs.openP p flags mode).1.inodes (fun _ _ => False) ∧
    Lost (fs.openP p flags mode).1.inodes fs.inodes (Last fs.inodes (if flags &&& oCREAT = 0 then [] else [p])) := by
  obtain ⟨r, hr, hl⟩ := look h.tree p hp
  unfold Fs.openP
  rw [hr]
  cases hl with
  | root he => exact ⟨((thin_openExisting fs _ flags).lost _).1, ((thin_openExisting fs _ flags).lost _).2⟩
  | found => exact ⟨((thin_openExisting fs _ flags).lost _).1, ((thin_openExisting fs _ flags).lost _).2⟩
  | gone => exact ⟨.refl _ _, .refl _ _⟩
  | @free par ps n pd he w h1 h2 h3 h4 h5 h6 =>
    dsimp only
    split
    · exact ⟨.refl _ _, .refl _ _⟩
    · split
      · exact ⟨.refl _ _, .refl _ _⟩
      · split
        · exact ⟨.refl _ _, .refl _ _⟩
        · have hg : p.getLast? = some n := by rw [he]; exact getLast_snoc ..
          rw [hg]
          dsimp only
          obtain ⟨fs', e, g1, g2⟩ := lost_create h he w h1 h2 h4 (fun _ => newFile mode)
          rw [e]
          dsimp only
          rw [openObj_table]
          exact ⟨g1, g2⟩

theorem lost_mkdir (h : FsInv fs cnt) {p : List Name} (hp : GoodPath p) (mode : BitVec 32) :
    Lost fs.inodes (fs.mkdir p mode).1.inodes (fun _ _ => False) ∧ Lost (fs.mkdir p mode).1.inodes fs.inodes (Last fs.inodes [p]) := by
  obtain ⟨r, hr, hl⟩ := look h.tree p hp
  unfold Fs.mkdir
  rw [hr]
  cases hl with
  | root | found | gone => exact ⟨.refl _ _, .refl _ _⟩
  | @free par ps n pd he w h1 h2 h3 h4 h5 h6 =>
    dsimp only
    split
    · exact ⟨.refl _ _, .refl _ _⟩
    · have hg : p.getLast? = some n := by rw [he]; exact getLast_snoc ..
      rw [hg]
      dsimp only
      obtain ⟨fs', e, g1, g2⟩ := lost_create h he w h1 h2 h4 (fun new =>
          { kind := .dir, mode := sIFDIR ||| mode, size := 0, link := 3, ref := 0, ents := initEnts new par })
      rw [e]
      exact ⟨g1, g2⟩

theorem lost_mknod (h : FsInv fs cnt) {p : List Name} (hp : GoodPath p) (mode : BitVec 32) (dev : BitVec 64) :
    Lost fs.inodes (fs.mknod p mode dev).1.inodes (fun _ _ => False) ∧ Lost (fs.mknod p mode dev).1.inodes fs.inodes (Last fs.inodes [p]) := by
  obtain ⟨r, hr, hl⟩ := look h.tree p hp
  unfold Fs.mknod
  rw [hr]
  cases hl with
  | root | found | gone => exact ⟨.refl _ _, .refl _ _⟩
  | @free par ps n pd he w h1 h2 h3 h4 h5 h6 =>
    dsimp only
    split
    · exact ⟨.refl _ _, .refl _ _⟩
    · split
      · exact ⟨.refl _ _, .refl _ _⟩
      · have hg : p.getLast? = some n := by rw [he]; exact getLast_snoc ..
        rw [hg]
        dsimp only
        obtain ⟨fs', e, g1, g2⟩ := lost_create h he w h1 h2 h4 (fun _ =>
          { kind := .chr (DevNo.devtuple dev), mode := mode, size := 0, link := 1, ref := 0, ents := [] })
        rw [e]
        exact ⟨g1, g2⟩

theorem lost_link (h : FsInv fs cnt) {old new : List Name} (hn : GoodPath new) :
    Lost fs.inodes (fs.link old new).1.inodes (fun _ _ => False) ∧ Lost (fs.link old new).1.inodes fs.inodes (Last fs.inodes [new]) := by
  have same : Lost fs.inodes fs.inodes (fun _ _ => False) ∧ Lost fs.inodes fs.inodes (Last fs.inodes [new]) := ⟨.refl _ _, .refl _ _⟩
  unfold Fs.link
  split
  · exact same
  · rename_i name hname
    split
    · exact same
    · exact same
    · split
      · exact same
      · rename_i i _ _ _ nd hi
        split
        · exact same
        · rename_i hnd
          have t1 : Thin fs.inodes (fs.set i (some { nd with link := nd.link + 1 })).inodes := .upd hi rfl rfl
          have t2 : Thin fs.inodes ((fs.set i (some { nd with link := nd.link + 1 })).set i (some { nd with link := nd.link + 1 - 1 })).inodes :=
            t1.trans (.upd (upd_same _ _ _) rfl rfl)
          dsimp only
          obtain ⟨r, hr, hl⟩ := look h.tree new hn
          rw [walk_set (nd' := { nd with link := nd.link + 1 }) hi rfl rfl, hr]
          cases hl with
          | root | found | gone => exact ⟨(t2.lost _).1, (t2.lost _).2⟩
          | @free par ps n pd he w h1 h2 h3 h4 h5 h6 =>
            have e : name = n := by
              rw [he, getLast_snoc] at hname; cases hname; rfl
            subst e
            have hne : par ≠ i := by
              rintro rfl
              rw [h1] at hi; cases hi
              exact hnd h2
            have e1 : (fs.set i (some { nd with link := nd.link + 1 })).inodes par = some pd := by
              simp only [Fs.set]; rw [upd_ne _ _ hne]; exact h1
            dsimp only
            rw [e1]
            dsimp only
            rw [if_pos h2]
            simp only [Fs.logIno, Fs.set]
            constructor
            · refine ⟨fun d x x' g1 g2 => ?_⟩
              rw [upd_apply] at g2
              split at g2
              · rename_i hdp; subst hdp
                rw [h1] at g1; cases g1; cases g2
                refine ⟨rfl, fun m j hm _ => mem_entPut.2 (.inr ⟨hm, ?_⟩)⟩
                rintro rfl
                exact entGet_none.1 h4 _ hm
              · exact (t1.lost (fun _ _ => False)).1.get d x x' g1 g2
            · refine ⟨fun d x' x g2 g1 => ?_⟩
              rw [upd_apply] at g2
              split at g2
              · rename_i hdp; subst hdp
                rw [h1] at g1; cases g1; cases g2
                refine ⟨rfl, fun m j hm hl => ?_⟩
                rcases mem_entPut.1 hm with ⟨rfl, -⟩ | ⟨hm, -⟩
                · exact absurd ⟨ps, by rw [he]; simp, w⟩ hl
                · exact hm
              · exact (t1.lost _).2.get d x' x g2 g1

/-! ## Removing -/

theorem upd_swap {α : Type} (f : Nat → α) {i j : Nat} (v w : α) (h : i ≠ j) : upd (upd f i v) j w = upd (upd f j w) i v := by
  funext k
  simp only [upd_apply]
  by_cases h1 : k = i
  · subst h1; simp [h]
  · by_cases h2 : k = j <;> simp [h1, h2, Ne.symm h]


/-- `b` is `a` without the entry `n` of `par`, thinned. -/
theorem lost_del {a b : Nat → Option Inode} {par : Nat} {pd pd' : Inode} {p ps : List Name} {n : Name} (he : p = ps ++ [n])
    (hw : Walk a rootIno ps par) (hp : a par = some pd) (hk : pd'.kind = pd.kind) (hents : pd'.ents = entDel pd.ents n)
    (hb : Thin (upd a par (some pd')) b) : Lost a b (Last a [p]) ∧ Lost b a (fun _ _ => False) := by
  constructor
  · refine ⟨fun d x x' g1 g2 => ?_⟩
    obtain ⟨y, g3, g4, g5⟩ := hb.get d x' g2
    rw [upd_apply] at g3
    split at g3
    · rename_i hdp; subst hdp
      rw [hp] at g1; cases g1; cases g3
      refine ⟨g4.trans hk, fun m j hm hl => ?_⟩
      rw [g5, hents]
      refine mem_entDel.2 ⟨hm, ?_⟩
      rintro rfl
      exact hl ⟨ps, by rw [he]; simp, hw⟩
    · rw [g1] at g3; cases g3
      exact ⟨g4, fun m j hm _ => by rw [g5]; exact hm⟩
  · refine ⟨fun d x' x g2 g1 => ?_⟩
    obtain ⟨y, g3, g4, g5⟩ := hb.get d x' g2
    rw [upd_apply] at g3
    split at g3
    · rename_i hdp; subst hdp
      rw [hp] at g1; cases g1; cases g3
      refine ⟨(g4.trans hk).symm, fun m j hm _ => ?_⟩
      rw [g5, hents] at hm
      exact (mem_entDel.1 hm).1
    · rw [g1] at g3; cases g3
      exact ⟨g4.symm, fun m j hm _ => by rw [← g5]; exact hm⟩

/-- What is left by `removeFromParent`. -/
theorem removeFromParent_cases (fs : Fs) (par : Nat) (p : List Name) {ps : List Name} {n : Name} (he : p = ps ++ [n]) :
    (fs.removeFromParent par p).1 = fs ∨
    ∃ pd, fs.inodes par = some pd ∧ (fs.removeFromParent par p).1 = fs.set par (some { pd with ents := entDel pd.ents n, link := pd.link - 1 }) := by
  unfold Fs.removeFromParent
  have hg : p.getLast? = some n := by rw [he]; exact getLast_snoc ..
  rw [hg]
  split
  · exact .inl rfl
  · rename_i pd hp
    split
    · split
      · exact .inl rfl
      · dsimp only
        split
        · exact .inl rfl
        · exact .inr ⟨pd, hp, rfl⟩
    · exact .inl rfl

theorem lost_unlink (h : FsInv fs cnt) {p : List Name} (hp : GoodPath p) :
    Lost fs.inodes (fs.unlink p).1.inodes (Last fs.inodes [p]) ∧ Lost (fs.unlink p).1.inodes fs.inodes (fun _ _ => False) := by
  have same : Lost fs.inodes fs.inodes (Last fs.inodes [p]) ∧ Lost fs.inodes fs.inodes (fun _ _ => False) := ⟨.refl _ _, .refl _ _⟩
  obtain ⟨r, hr, hl⟩ := look h.tree p hp
  unfold Fs.unlink
  rw [hr]
  cases hl with
  | root | free | gone => exact same
  | @found i par ps n pd nd he w w' h1 h2 h3 h4 h5 h6 h7 h8 h9 =>
    dsimp only
    rw [h6]
    dsimp only
    split
    · exact same
    · have t1 : Thin fs.inodes (fs.set i (some { nd with link := nd.link - 1 })).inodes := .upd h6 rfl rfl
      have hpar : (fs.set i (some { nd with link := nd.link - 1 })).inodes par = some pd := by
        simp only [Fs.set]; rw [upd_ne _ _ (Ne.symm h9)]; exact h1
      rcases removeFromParent_cases (fs.set i (some { nd with link := nd.link - 1 })) par p he with hc | ⟨x, hx, hc⟩
      · have hr2 : Thin fs.inodes ((fs.set i (some { nd with link := nd.link - 1 })).removeFromParent par p).1.inodes := by rw [hc]; exact t1
        generalize (fs.set i (some { nd with link := nd.link - 1 })).removeFromParent par p = r at hr2 hc
        obtain ⟨fs2, r2⟩ := r
        dsimp only at hr2
        have key : Thin fs.inodes (upd fs2.inodes i none) := hr2.trans (.del _ _)
        cases r2 <;> dsimp only
        · (repeat' split) <;> first
            | exact ⟨(hr2.lost _).1, (hr2.lost _).2⟩
            | exact ⟨(key.lost _).1, (key.lost _).2⟩
        all_goals exact ⟨(hr2.lost _).1, (hr2.lost _).2⟩
      · rw [hpar] at hx; cases hx
        have e2 : ((fs.set i (some { nd with link := nd.link - 1 })).removeFromParent par p).1.inodes =
            upd (upd fs.inodes i (some { nd with link := nd.link - 1 })) par (some { pd with ents := entDel pd.ents n, link := pd.link - 1 }) := by
          rw [hc]; rfl
        have hr2 : Thin (upd fs.inodes par (some { pd with ents := entDel pd.ents n, link := pd.link - 1 }))
            ((fs.set i (some { nd with link := nd.link - 1 })).removeFromParent par p).1.inodes := by
          rw [e2, upd_swap _ _ _ h9]
          exact .upd ((upd_ne _ _ h9).trans h6) rfl rfl
        generalize (fs.set i (some { nd with link := nd.link - 1 })).removeFromParent par p = r at hr2
        obtain ⟨fs2, r2⟩ := r
        dsimp only at hr2
        have g1 := lost_del he w h1 (pd' := { pd with ents := entDel pd.ents n, link := pd.link - 1 }) rfl rfl hr2
        have g2 := lost_del he w h1 (pd' := { pd with ents := entDel pd.ents n, link := pd.link - 1 }) rfl rfl (hr2.trans (.del _ i))
        cases r2 <;> dsimp only
        · (repeat' split) <;> first | exact g1 | exact g2
        all_goals exact g1

theorem lost_rmdir (h : FsInv fs cnt) {p : List Name} (hp : GoodPath p) :
    Lost fs.inodes (fs.rmdir p).1.inodes (Last fs.inodes [p]) ∧ Lost (fs.rmdir p).1.inodes fs.inodes (fun _ _ => False) := by
  have same : Lost fs.inodes fs.inodes (Last fs.inodes [p]) ∧ Lost fs.inodes fs.inodes (fun _ _ => False) := ⟨.refl _ _, .refl _ _⟩
  obtain ⟨r, hr, hl⟩ := look h.tree p hp
  unfold Fs.rmdir
  rw [hr]
  cases hl with
  | root | free | gone => exact same
  | @found i par ps n pd nd he w w' h1 h2 h3 h4 h5 h6 h7 h8 h9 =>
    dsimp only
    rw [h1]
    dsimp only
    rw [h6]
    dsimp only
    split
    · exact same
    · split
      · split
        · exact same
        · split
          · exact same
          · split
            · exact same
            · have t1 : Thin fs.inodes (if nd.ref = 0 then fs.set i (some { nd with link := 2 }) else fs).inodes := by
                split
                · exact .upd h6 rfl rfl
                · exact .refl _
              have hpar : (if nd.ref = 0 then fs.set i (some { nd with link := 2 }) else fs).inodes par = some pd := by
                split
                · simp only [Fs.set]; rw [upd_ne _ _ (Ne.symm h9)]; exact h1
                · exact h1
              have t2 : Thin (upd fs.inodes par (some { pd with ents := entDel pd.ents n, link := pd.link - 1 }))
                  (upd (if nd.ref = 0 then fs.set i (some { nd with link := 2 }) else fs).inodes par
                    (some { pd with ents := entDel pd.ents n, link := pd.link - 1 })) := by
                split
                · simp only [Fs.set]; rw [upd_swap _ _ _ h9]
                  exact .upd ((upd_ne _ _ h9).trans h6) rfl rfl
                · exact .refl _
              generalize (if nd.ref = 0 then fs.set i (some { nd with link := 2 }) else fs) = fs1 at t1 hpar t2
              rcases removeFromParent_cases fs1 par p he with hc | ⟨x, hx, hc⟩
              · have hr2 : Thin fs.inodes (fs1.removeFromParent par p).1.inodes := by rw [hc]; exact t1
                generalize fs1.removeFromParent par p = r at hr2
                obtain ⟨fs2, r2⟩ := r
                dsimp only at hr2
                have key : Thin fs.inodes (upd fs2.inodes i none) := hr2.trans (.del _ _)
                cases r2 <;> dsimp only
                · split <;> first
                    | exact ⟨(hr2.lost _).1, (hr2.lost _).2⟩
                    | exact ⟨(key.lost _).1, (key.lost _).2⟩
                all_goals exact ⟨(hr2.lost _).1, (hr2.lost _).2⟩
              · rw [hpar] at hx; cases hx
                have hr2 : Thin (upd fs.inodes par (some { pd with ents := entDel pd.ents n, link := pd.link - 1 }))
                    (fs1.removeFromParent par p).1.inodes := by rw [hc]; exact t2
                generalize fs1.removeFromParent par p = r at hr2
                obtain ⟨fs2, r2⟩ := r
                dsimp only at hr2
                have g1 := lost_del he w h1 (pd' := { pd with ents := entDel pd.ents n, link := pd.link - 1 }) rfl rfl hr2
                have g2 := lost_del he w h1 (pd' := { pd with ents := entDel pd.ents n, link := pd.link - 1 }) rfl rfl (hr2.trans (.del _ i))
                cases r2 <;> dsimp only
                · split <;> first | exact g1 | exact g2
                all_goals exact g1
      · exact same

theorem lost_rename (h : FsInv fs cnt) {old new : List Name} (ho : GoodPath old) (hn : GoodPath new) (ht : RenameTame fs new) :
    Lost fs.inodes (fs.rename old new).1.inodes (Last fs.inodes [old]) ∧ Lost (fs.rename old new).1.inodes fs.inodes (Last fs.inodes [new]) := by
  have same : Lost fs.inodes fs.inodes (Last fs.inodes [old]) ∧ Lost fs.inodes fs.inodes (Last fs.inodes [new]) := ⟨.refl _ _, .refl _ _⟩
  obtain ⟨r, hr, hl⟩ := look h.tree old ho
  unfold Fs.rename
  rw [hr]
  cases hl with
  | root | free | gone => exact same
  | @found i par ps o pd nd he w w' h1 h2 h3 h4 h5 h6 h7 h8 h9 =>
    dsimp only
    obtain ⟨r', hr', hl'⟩ := look h.tree new hn
    rw [hr']
    cases hl' with
    | root | found => exact absurd hr' (ht _ _)
    | gone =>
      dsimp only
      rw [if_pos (fun h => nomatch h)]
      exact same
    | @free par' ps' n pd' he' g w2 g2 g3 g4 g5 g6 =>
      dsimp only
      split
      · exact same
      · rename_i e
        have e : par' = par := by
          by_cases hh : par' = par
          · exact hh
          · exact absurd (by rw [ne_eq, Option.some.injEq]; exact hh) e
        subst e
        rw [h1] at w2; cases w2
        have hg1 : old.getLast? = some o := by rw [he]; exact getLast_snoc ..
        have hg2 : new.getLast? = some n := by rw [he']; exact getLast_snoc ..
        rw [h1, hg1, hg2]
        dsimp only
        rw [if_pos h2]
        simp only [Fs.logIno, Fs.set]
        constructor
        · refine ⟨fun d x x' k1 k2 => ?_⟩
          rw [upd_apply] at k2
          split at k2
          · rename_i hdp; subst hdp
            rw [h1] at k1; cases k1; cases k2
            refine ⟨rfl, fun m j hm hl => ?_⟩
            refine mem_entDel.2 ⟨mem_entPut.2 (.inr ⟨hm, ?_⟩), ?_⟩
            · rintro rfl; exact entGet_none.1 g4 _ hm
            · rintro rfl; exact hl ⟨ps, by rw [he]; simp, w⟩
          · rw [k1] at k2; cases k2
            exact ⟨rfl, fun _ _ hm _ => hm⟩
        · refine ⟨fun d x' x k2 k1 => ?_⟩
          rw [upd_apply] at k2
          split at k2
          · rename_i hdp; subst hdp
            rw [h1] at k1; cases k1; cases k2
            refine ⟨rfl, fun m j hm hl => ?_⟩
            rcases mem_entPut.1 (mem_entDel.1 hm).1 with ⟨rfl, -⟩ | ⟨hm, -⟩
            · exact absurd ⟨ps', by rw [he']; simp, g⟩ hl
            · exact hm
          · rw [k1] at k2; cases k2
            exact ⟨rfl, fun _ _ hm _ => hm⟩

end Verif.Kernel
