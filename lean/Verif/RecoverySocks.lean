import Verif.RecoveryWitness
import Verif.UnixWitness

/-! What a shutdown does with the paths in the table of bound unix sockets: they vanish, and nothing else does. -/

namespace Verif.Recovery

open Verif.Fs Verif.Path Verif.Kernel

/-- The same inode, except that a directory may have lost entries. -/
def Alike : Option Inode → Option Inode → Prop
  | none, none => True
  | some a, some b => b.kind = a.kind ∧ b.mode = a.mode ∧ b.size = a.size ∧ b.ref = a.ref ∧ (a.isDir = false → b = a)
  | _, _ => False

/-- `fs'` is `fs` without the inodes in `I`: every path leads where it led, except to those inodes; all others are alike; file
contents stay. -/
structure Pruned (I : Nat → Prop) (fs fs' : Fs) : Prop where
  paths : ∀ q j, GoodPath q → (Walk fs'.inodes rootIno q j ↔ Walk fs.inodes rootIno q j ∧ ¬ I j)
  dead : ∀ j, I j → fs'.inodes j = none
  alike : ∀ j, ¬ I j → Alike (fs.inodes j) (fs'.inodes j)
  disk : fs'.disk = fs.disk
  next : fs'.next = fs.next

theorem Alike.refl (a : Option Inode) : Alike a a := by cases a <;> simp [Alike]

theorem Alike.trans {a b c : Option Inode} (h : Alike a b) (h' : Alike b c) : Alike a c := by
  cases a <;> cases b <;> cases c <;> simp only [Alike] at h h' ⊢
  obtain ⟨a1, a2, a3, a4, a5⟩ := h
  obtain ⟨b1, b2, b3, b4, b5⟩ := h'
  refine ⟨b1.trans a1, b2.trans a2, b3.trans a3, b4.trans a4, fun h => ?_⟩
  have := a5 h
  subst this
  exact b5 h

theorem Pruned.refl (fs : Fs) : Pruned (fun _ => False) fs fs :=
  ⟨fun _ _ _ => by simp, fun _ h => h.elim, fun _ _ => .refl _, rfl, rfl⟩

theorem Pruned.trans {I J : Nat → Prop} {a b c : Fs} (h : Pruned I a b) (h' : Pruned J b c) (hd : ∀ j, I j → c.inodes j = none) :
    Pruned (fun j => I j ∨ J j) a c := by
  refine ⟨fun q j hq => ?_, fun j hj => ?_, fun j hj => ?_, h'.disk.trans h.disk, h'.next.trans h.next⟩
  · rw [h'.paths q j hq, h.paths q j hq]
    constructor
    · rintro ⟨⟨x, y⟩, z⟩; exact ⟨x, fun e => e.elim y z⟩
    · rintro ⟨x, y⟩; exact ⟨⟨x, fun e => y (.inl e)⟩, fun e => y (.inr e)⟩
  · rcases hj with hj | hj
    · exact hd j hj
    · exact h'.dead j hj
  · exact (h.alike j (fun e => hj (.inl e))).trans (h'.alike j (fun e => hj (.inr e)))

/-- A path that names a socket or other file with this one name, in a writable directory. -/
structure Sole (fs : Fs) (p : List Name) (i : Nat) : Prop where
  good : GoodPath p
  walk : Walk fs.inodes rootIno p i
  node : ∃ nd, fs.inodes i = some nd ∧ nd.isDir = false ∧ nd.link = 1
  writable : ∀ ps n d pd, p = ps ++ [n] → Walk fs.inodes rootIno ps d → fs.inodes d = some pd → pd.mode &&& sIWALL ≠ 0

theorem removeDom_pruned {fs : Fs} (T : Tree fs.inodes fs.next) {p : List Name} {i : Nat} (h : Sole fs p i) :
    ∃ fs', removeDom fs p = (fs', .ok 0) ∧ Tree fs'.inodes fs'.next ∧ Pruned (fun j => j = i) fs fs' ∧
      fs'.dom = fs.dom.filter (· ≠ p) := by
  obtain ⟨nd, hi, hnd, hln⟩ := h.node
  obtain ⟨r, hr, hlook⟩ := look T p h.good
  cases hlook with
  | root e => subst e; have := walk_fun T h.walk (.here rootIno); subst this; obtain ⟨x, hx, hxd⟩ := T.root; rw [hi] at hx; cases hx; rw [hnd] at hxd; cases hxd
  | free _ _ _ _ _ _ _ hno => exact absurd h.walk (hno i)
  | gone _ _ hno => exact absurd h.walk (hno i)
  | found heq w w' hpar hd hl hf hg hi' h1 h7 hne =>
    rename_i i' par ps n pd nd'
    have := walk_fun T h.walk w'
    subst this
    rw [hi] at hi'; cases hi'
    subst heq
    have hw := h.writable ps n par pd rfl w hpar
    have hrm : fs.removeFromParent par (ps ++ [n]) =
        (fs.set par (some { pd with ents := entDel pd.ents n, link := pd.link - 1 }), .ok 0) := by
      simp only [Fs.removeFromParent, hpar, hd, if_true, hw, if_false, getLast_snoc, hf]
    have hfs : removeDom fs (ps ++ [n]) = ({ ((fs.set par (some { pd with ents := entDel pd.ents n, link := pd.link - 1 })).set i none) with
        dom := fs.dom.filter (· ≠ ps ++ [n]) }, .ok 0) := by
      simp only [removeDom, hr, hrm]
      rfl
    have hT := T.delEntry hpar hd hl (Good.proper hg) hf hi
        (nd' := { nd with link := nd.link - 1 }) rfl rfl (.inl ⟨hnd, rfl⟩)
        (pd' := { pd with ents := entDel pd.ents n, link := pd.link - 1 }) ⟨rfl, rfl, rfl⟩
    have fi : (upd (upd fs.inodes i (some { nd with link := nd.link - 1 })) par
        (some { pd with ents := entDel pd.ents n, link := pd.link - 1 })) i = some { nd with link := nd.link - 1 } := by
      rw [upd_ne _ _ hne, upd_same]
    have hdir2 : ({ nd with link := nd.link - 1 } : Inode).isDir = false := hnd
    have hT2 := hT.remove fi h1 (by rw [← hT.flink fi hdir2]; dsimp only; omega) (by rw [hT.leaf fi hdir2]; simp)
    have hino : upd (upd (upd fs.inodes i (some { nd with link := nd.link - 1 })) par
        (some { pd with ents := entDel pd.ents n, link := pd.link - 1 })) i none =
        upd (upd fs.inodes par (some { pd with ents := entDel pd.ents n, link := pd.link - 1 })) i none := by
      funext j
      simp only [upd_apply]
      by_cases e : j = i
      · simp [e]
      · simp [e]
    rw [hino] at hT2
    refine ⟨_, hfs, hT2, ?_, rfl⟩
    have hI : ∀ j, j ≠ i → j ≠ par → ((fs.set par (some { pd with ents := entDel pd.ents n, link := pd.link - 1 })).set i none).inodes j = fs.inodes j := by
      intro j e1 e2
      simp only [Fs.set]
      rw [upd_ne _ _ e1, upd_ne _ _ e2]
    have hIp : ((fs.set par (some { pd with ents := entDel pd.ents n, link := pd.link - 1 })).set i none).inodes par =
        some { pd with ents := entDel pd.ents n, link := pd.link - 1 } := by
      simp only [Fs.set]
      rw [upd_ne _ _ hne.symm, upd_same]
    have hIi : ((fs.set par (some { pd with ents := entDel pd.ents n, link := pd.link - 1 })).set i none).inodes i = none := by
      simp only [Fs.set]
      rw [upd_same]
    refine ⟨fun q j hq => ⟨fun hwk => ⟨?_, ?_⟩, fun hwk => ?_⟩, ?_, ?_, rfl, rfl⟩
    · -- every walk was there
      clear hq
      generalize rootIno = d at hwk ⊢
      induction hwk with
      | here d => exact .here d
      | @down d j k m ns x a b c _ ih =>
        by_cases e1 : d = i
        · subst e1; rw [show _ = none from hIi] at a; cases a
        · by_cases e2 : d = par
          · subst e2
            rw [show _ = some _ from hIp] at a; cases a
            exact .down hpar hd (mem_entDel.1 c).1 ih
          · rw [show _ = fs.inodes d from hI d e1 e2] at a
            exact .down a b c ih
    · -- to something that is there
      rintro rfl
      rcases List.eq_nil_or_concat q with e | ⟨qs, m, e⟩
      · subst e; cases hwk; exact h1 rfl
      · rw [List.concat_eq_append] at e
        subst e
        obtain ⟨e, x, w1, g1, g2, g3⟩ := hwk.split
        obtain ⟨-, -, -, y, hy, -⟩ := hT2.ent g1 g3 (Good.proper (hq m (by simp)))
        rw [upd_same] at hy; cases hy
    · obtain ⟨hwk, hji⟩ := hwk
      clear hq
      generalize rootIno = d at hwk ⊢
      induction hwk with
      | here d => exact .here d
      | @down d j k m ns x a b c w ih =>
        have e1 : d ≠ i := by
          rintro rfl; rw [hi] at a; cases a; rw [hnd] at b; cases b
        by_cases e2 : d = par
        · subst e2
          rw [hpar] at a; cases a
          refine .down (nd := { pd with ents := entDel pd.ents n, link := pd.link - 1 }) hIp hd ?_ (ih hji)
          refine mem_entDel.2 ⟨c, ?_⟩
          rintro rfl
          have := (entGet_iff (T.nodup hpar)).2 c
          rw [hf] at this
          cases this
          cases w with
          | here => exact hji rfl
          | down a' b' _ _ => rw [hi] at a'; cases a'; rw [hnd] at b'; cases b'
        · exact .down (nd := x) ((hI d e1 e2).trans a) b c (ih hji)
    · rintro j rfl; exact hIi
    · intro j hj
      by_cases e2 : j = par
      · subst e2
        show Alike _ (((fs.set j (some { pd with ents := entDel pd.ents n, link := pd.link - 1 })).set i none).inodes j)
        rw [hIp, hpar]
        refine ⟨rfl, rfl, rfl, rfl, fun e => ?_⟩
        rw [hd] at e; cases e
      · show Alike _ (((fs.set par (some { pd with ents := entDel pd.ents n, link := pd.link - 1 })).set i none).inodes j)
        rw [hI j hj e2]
        exact .refl _

/-- C53, C54.  The first part of a shutdown: if the paths in the table of bound sockets name different files that have no other name, in
writable directories, then afterwards these paths name nothing and these inodes are gone; every other path leads where it led, every other
inode keeps its attributes, and the file contents stay. -/
theorem sockets_vanish {fs : Fs} (T : Tree fs.inodes fs.next) (ps : List (List Name)) (ino : List Name → Nat)
    (hs : ∀ p ∈ ps, Sole fs p (ino p)) (hn : ps.Pairwise (fun p q => ino p ≠ ino q)) :
    ∃ fs', removeDoms fs ps = (fs', .ok 0) ∧ Tree fs'.inodes fs'.next ∧ Pruned (fun j => ∃ p ∈ ps, ino p = j) fs fs' ∧
      (∀ p ∈ ps, ∀ j, ¬ Walk fs'.inodes rootIno p j) ∧ (∀ p ∈ ps, p ∉ fs'.dom) := by
  induction ps generalizing fs with
  | nil =>
    refine ⟨fs, rfl, T, ?_, by simp, by simp⟩
    have := Pruned.refl fs
    simpa using this
  | cons p ps ih =>
    obtain ⟨fs1, h1, T1, P1, hdom⟩ := removeDom_pruned T (hs p (by simp))
    rw [List.pairwise_cons] at hn
    have hs1 : ∀ q ∈ ps, Sole fs1 q (ino q) := by
      intro q hq
      have hq0 := hs q (by simp [hq])
      have hne := (hn.1 q hq).symm
      obtain ⟨nd, g1, g2, g3⟩ := hq0.node
      have ha := P1.alike (ino q) hne
      refine ⟨hq0.good, (P1.paths q _ hq0.good).2 ⟨hq0.walk, hne⟩, ⟨nd, ?_, g2, g3⟩, ?_⟩
      · rw [g1] at ha
        cases hx : fs1.inodes (ino q) with
        | none => rw [hx] at ha; exact ha.elim
        | some x => rw [hx] at ha; rw [ha.2.2.2.2 g2]
      · intro qs n d pd he hwd hpd
        have hgd : GoodPath qs := fun m hm => hq0.good m (by rw [he]; simp [hm])
        obtain ⟨w1, w2⟩ := (P1.paths qs d hgd).1 hwd
        have ha := P1.alike d w2
        rw [hpd] at ha
        cases hx : fs.inodes d with
        | none => rw [hx] at ha; exact ha.elim
        | some x =>
          rw [hx] at ha
          rw [ha.2.1]
          exact hq0.writable qs n d x he w1 hx
    obtain ⟨fs2, h2, T2, P2, hno, hd2⟩ := ih T1 hs1 hn.2
    have hgone : ∀ j, j = ino p → fs2.inodes j = none := by
      rintro j rfl
      by_cases hI : ∃ q ∈ ps, ino q = ino p
      · exact P2.dead _ hI
      · have := P2.alike (ino p) hI
        rw [P1.dead _ rfl] at this
        cases hx : fs2.inodes (ino p) with
        | none => rfl
        | some x => rw [hx] at this; exact this.elim
    have P := P1.trans P2 hgone
    have hsame : (fun j => j = ino p ∨ ∃ q ∈ ps, ino q = j) = (fun j => ∃ q ∈ p :: ps, ino q = j) := by
      funext j
      apply propext
      constructor
      · rintro (rfl | ⟨q, hq, rfl⟩)
        · exact ⟨p, by simp, rfl⟩
        · exact ⟨q, by simp [hq], rfl⟩
      · rintro ⟨q, hq, rfl⟩
        rcases List.mem_cons.1 hq with rfl | hq
        · exact .inl rfl
        · exact .inr ⟨q, hq, rfl⟩
    rw [hsame] at P
    have hnone : ∀ q ∈ p :: ps, ∀ j, ¬ Walk fs2.inodes rootIno q j := by
      intro q hq j hw
      have hg := (hs q hq).good
      obtain ⟨w1, w2⟩ := (P.paths q j hg).1 hw
      have := walk_fun T w1 (hs q hq).walk
      exact w2 ⟨q, hq, this.symm⟩
    refine ⟨fs2, by simp [removeDoms, h1, h2], T2, P, hnone, ?_⟩
    have hsub : ∀ (l : List (List Name)) (g g' : Fs) (r : Ret), removeDoms g l = (g', r) → ∀ x, x ∈ g'.dom → x ∈ g.dom := by
      intro l
      induction l with
      | nil => intro g g' r e x hx; simp only [removeDoms, Prod.mk.injEq] at e; rw [e.1]; exact hx
      | cons a l ihl =>
        intro g g' r e x hx
        have hrd : ∀ y, y ∈ (removeDom g a).1.dom → y ∈ g.dom := by
          intro y hy
          have hp : ∀ par, (g.removeFromParent par a).1.dom = g.dom := by
            intro par
            unfold Fs.removeFromParent
            repeat' split
            all_goals rfl
          unfold removeDom at hy
          split at hy
          · exact hy
          · exact hy
          · exact hy
          · rename_i par _
            have := hp par
            split at hy
            · rename_i h; rw [h] at this; rw [← this]; exact hy
            · rename_i h
              simp only [List.mem_filter] at hy
              rw [h] at this
              rw [← this]; exact hy.1
        simp only [removeDoms] at e
        cases hx1 : removeDom g a with
        | mk g1 r1 =>
          rw [hx1] at e hrd
          cases r1 with
          | panic => simp only [Prod.mk.injEq] at e; rw [← e.1] at hx; exact hrd x hx
          | ok _ => exact hrd x (ihl g1 g' r e x hx)
          | err _ => exact hrd x (ihl g1 g' r e x hx)
          | blocked => exact hrd x (ihl g1 g' r e x hx)
    intro q hq
    rcases List.mem_cons.1 hq with rfl | hq
    · intro hm
      have := hsub _ _ _ _ h2 _ hm
      rw [hdom] at this
      simp at this
    · exact hd2 q hq

/-! Two bound sockets, `/s` and `/o`. -/

def twoSocks : Fs := (UnixSock.bindName (UnixSock.bindName UnixSock.fs0 UnixSock.pS [[115]]).1 UnixSock.pO [[111]]).1

theorem good_one {c : UInt8} (h : Good [c]) : GoodPath [[c]] := by intro n hn; rw [List.mem_singleton.1 hn]; exact h

theorem twoSocks_tree : Tree twoSocks.inodes twoSocks.next :=
  UnixSock.tree_bindName (UnixSock.tree_bindName UnixSock.fs0_tree (good_one (by decide)) _) (good_one (by decide)) _

theorem twoSocks_sole {c : UInt8} {i : Nat} (hg : Good [c])
    (h : ∃ nd x, twoSocks.inodes rootIno = some nd ∧ nd.isDir ∧ nd.mode &&& sIWALL ≠ 0 ∧ ([c], i) ∈ nd.ents ∧ twoSocks.inodes i = some x ∧ x.isDir = false ∧ x.link = 1) :
    Sole twoSocks [[c]] i := by
  obtain ⟨nd, x, h1, h2, h3, h4, h5, h6, h7⟩ := h
  refine ⟨good_one hg, .down h1 h2 h4 (.here _), ⟨x, h5, h6, h7⟩, ?_⟩
  intro ps n d pd he hw hd
  have : ps = [] := by
    have := congrArg List.length he
    simp only [List.length_cons, List.length_nil, List.length_append] at this
    exact List.eq_nil_of_length_eq_zero (by omega)
  subst this
  cases hw
  rw [h1] at hd; cases hd
  exact h3

example : twoSocks.dom = [[[111]], [[115]]] ∧
    (∀ p ∈ twoSocks.dom, Sole twoSocks p (if p = [[115]] then 9 else 10)) ∧
    twoSocks.dom.Pairwise (fun p q => (if p = [[115]] then 9 else 10) ≠ (if q = [[115]] then 9 else 10)) := by
  have hd : twoSocks.dom = [[[111]], [[115]]] := by decide +kernel
  rw [hd]
  refine ⟨rfl, ?_, by decide +kernel⟩
  have h9 : Sole twoSocks [[115]] 9 := twoSocks_sole (by decide) (by
    refine ⟨(twoSocks.inodes rootIno).get (by decide +kernel), (twoSocks.inodes 9).get (by decide +kernel), ?_, ?_, ?_, ?_, ?_, ?_, ?_⟩
    all_goals first | exact (Option.some_get _).symm | decide +kernel)
  have h10 : Sole twoSocks [[111]] 10 := twoSocks_sole (by decide) (by
    refine ⟨(twoSocks.inodes rootIno).get (by decide +kernel), (twoSocks.inodes 10).get (by decide +kernel), ?_, ?_, ?_, ?_, ?_, ?_, ?_⟩
    all_goals first | exact (Option.some_get _).symm | decide +kernel)
  intro p hp
  rcases List.mem_cons.1 hp with rfl | hp
  · exact h10
  · rw [List.mem_singleton.1 hp]; exact h9

example : (removeDoms twoSocks twoSocks.dom).2 = .ok 0 ∧ (removeDoms twoSocks twoSocks.dom).1.walk [[115]] = some (none, some rootIno) := by
  decide +kernel

end Verif.Recovery
