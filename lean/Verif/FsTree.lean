import Verif.FsLemmas

/-!
# The elementary changes of the directory structure preserve `Tree`
-/

namespace Verif.Fs
open Verif.Path

theorem namesIn_upd {ino : Nat → Option Inode} {k : Nat} {o : Option Inode} {i d : Nat} :
    namesIn (upd ino k o) i d = if d = k then (match o with | none => 0 | some nd => nm nd.ents i)
      else namesIn ino i d := by
  by_cases e : d = k
  · simp only [namesIn, upd_apply, if_pos e]; cases o <;> rfl
  · simp only [namesIn, upd_apply, if_neg e]

/-- Replacing an inode changes the number of names by the difference of its own entries. -/
theorem nameCount_upd {ino : Nat → Option Inode} {next k : Nat} {pd : Inode} {o : Option Inode}
    (hk : k < next) (h : ino k = some pd) (i : Nat) :
    nameCount (upd ino k o) next i + nm pd.ents i
      = nameCount ino next i + (match o with | none => 0 | some nd => nm nd.ents i) := by
  have := sumTo_upd (f := namesIn (upd ino k o) i) (g := namesIn ino i) hk
    (fun j hj => by rw [namesIn_upd, if_neg hj])
  rw [namesIn_upd, if_pos rfl] at this
  have e : namesIn ino i k = nm pd.ents i := by simp only [namesIn, h]
  rw [e] at this
  exact this

theorem nameCount_upd_same {ino : Nat → Option Inode} {next k : Nat} {pd pd' : Inode}
    (h : ino k = some pd) (he : pd'.ents = pd.ents) (i : Nat) :
    nameCount (upd ino k (some pd')) next i = nameCount ino next i := by
  apply sumTo_congr
  intro d _
  rw [namesIn_upd]
  split
  · rename_i e; subst e; simp only [namesIn, h, he]
  · rfl

theorem nameCount_fresh {ino next} (h : Tree ino next) {i : Nat} (hi : ino i = none) :
    nameCount ino next i = 0 := by
  apply sumTo_zero
  intro d _
  simp only [namesIn]
  split
  · rfl
  · rename_i nd hd
    apply Classical.byContradiction
    intro hne
    obtain ⟨n, h1, h2⟩ := nm_pos.1 (Nat.pos_of_ne_zero hne)
    obtain ⟨-, -, -, jd, hj, -⟩ := h.ent hd h1 h2
    rw [hi] at hj; cases hj

theorem nameCount_zero {ino next} (h : Tree ino next) {i d : Nat} {nd : Inode} {n : Name}
    (hz : nameCount ino next i = 0) (hd : ino d = some nd) (hm : (n, i) ∈ nd.ents) : ¬ Proper n := by
  intro hp
  have : 0 < nameCount ino next i := sumTo_pos (k := d) (h.bound hd) (by
    simp only [namesIn, hd]; exact nm_pos.2 ⟨n, hm, hp⟩)
  omega

theorem dot_not_proper : ¬ Proper dot := fun h => h.1 rfl
theorem dotdot_not_proper : ¬ Proper dotdot := fun h => h.2 rfl

/-- What `Tree` looks at in an inode. -/
def shape (nd : Inode) : Kind × Nat × List (Name × Nat) := (nd.kind, nd.link, nd.ents)

/-- Two inode tables that differ at most in modes, sizes and reference counts. -/
def SameShape (a b : Nat → Option Inode) : Prop := ∀ i, (a i).map shape = (b i).map shape

theorem SameShape.get {a b : Nat → Option Inode} (h : SameShape a b) {i : Nat} {nd : Inode}
    (hb : b i = some nd) : ∃ nd', a i = some nd' ∧ nd'.kind = nd.kind ∧ nd'.link = nd.link ∧
      nd'.ents = nd.ents ∧ nd'.isDir = nd.isDir := by
  have := h i
  rw [hb] at this
  cases ha : a i with
  | none => rw [ha] at this; simp at this
  | some nd' =>
    rw [ha] at this
    simp only [Option.map_some, Option.some.injEq, shape, Prod.mk.injEq] at this
    exact ⟨nd', rfl, this.1, this.2.1, this.2.2, by simp only [Inode.isDir, this.1]⟩

theorem SameShape.symm {a b} (h : SameShape a b) : SameShape b a := fun i => (h i).symm
theorem SameShape.refl (a) : SameShape a a := fun _ => rfl
theorem SameShape.trans {a b c} (h : SameShape a b) (h' : SameShape b c) : SameShape a c :=
  fun i => (h i).trans (h' i)

theorem SameShape.upd {a : Nat → Option Inode} {i : Nat} {nd nd' : Inode} (h : a i = some nd)
    (hs : shape nd' = shape nd) : SameShape a (upd a i (some nd')) := by
  intro j
  rw [upd_apply]
  split
  · rename_i e; subst e; simp [h, hs]
  · rfl

theorem SameShape.nameCount {a b} (h : SameShape a b) (next i : Nat) :
    nameCount a next i = nameCount b next i := by
  apply sumTo_congr
  intro d _
  simp only [namesIn]
  cases hb : b d with
  | none =>
    have := h d; rw [hb] at this
    cases ha : a d with
    | none => rfl
    | some x => rw [ha] at this; simp at this
  | some nd =>
    obtain ⟨nd', h1, -, -, h4, -⟩ := h.get hb
    rw [h1]; simp only [h4]

theorem Tree.congr {a b next} (h : Tree a next) (hs : SameShape a b) : Tree b next := by
  constructor
  · obtain ⟨nd, h1, h2⟩ := h.root
    obtain ⟨nd', g1, -, -, -, g5⟩ := hs.symm.get h1
    exact ⟨nd', g1, g5 ▸ h2⟩
  · exact h.seven
  · intro i nd hi
    obtain ⟨nd', g1, -⟩ := hs.get hi
    exact h.bound g1
  · intro i nd hi
    obtain ⟨nd', g1, -, -, g4, -⟩ := hs.get hi
    exact g4 ▸ h.nodup g1
  · intro i nd hi hd
    obtain ⟨nd', g1, -, -, g4, g5⟩ := hs.get hi
    exact g4 ▸ h.leaf g1 (g5 ▸ hd)
  · intro d nd n j hi hm hp
    obtain ⟨nd', g1, -, -, g4, -⟩ := hs.get hi
    obtain ⟨e1, e2, e3, jd, e4, e5⟩ := h.ent g1 (g4 ▸ hm) hp
    obtain ⟨jd', f1, -, -, f4, f5⟩ := hs.symm.get e4
    exact ⟨e1, e2, e3, jd', f1, fun x => f4 ▸ e5 (f5 ▸ x)⟩
  · intro d nd n m j jd hi hn hm pn pm hj hjd
    obtain ⟨nd', g1, -, -, g4, -⟩ := hs.get hi
    obtain ⟨jd', f1, -, -, -, f5⟩ := hs.get hj
    exact h.one g1 (g4 ▸ hn) (g4 ▸ hm) pn pm f1 (f5 ▸ hjd)
  · intro d nd hi hd h7
    obtain ⟨nd', g1, -, -, g4, g5⟩ := hs.get hi
    exact g4 ▸ h.dots g1 (g5 ▸ hd) h7
  · intro d nd hi hd h7
    obtain ⟨nd', g1, -, g3, g4, g5⟩ := hs.get hi
    exact g3 ▸ g4 ▸ h.dlink g1 (g5 ▸ hd) h7
  · intro i nd hi hd
    obtain ⟨nd', g1, -, g3, g4, g5⟩ := hs.get hi
    rw [← hs.nameCount, ← g3]
    exact h.flink g1 (g5 ▸ hd)
  · intro d nd n j hi hm hp hr
    obtain ⟨nd', g1, -, -, g4, -⟩ := hs.get hi
    obtain ⟨p, pd, m, e1, e2, e3⟩ := h.live g1 (g4 ▸ hm) hp hr
    obtain ⟨pd', f1, -, -, f4, -⟩ := hs.symm.get e1
    exact ⟨p, pd', m, f1, f4 ▸ e2, e3⟩

theorem nameCount_upd_none {ino : Nat → Option Inode} {next k : Nat} {o : Inode}
    (hk : k < next) (h : ino k = none) (i : Nat) :
    nameCount (upd ino k (some o)) next i = nameCount ino next i + nm o.ents i := by
  have := sumTo_upd (f := namesIn (upd ino k (some o)) i) (g := namesIn ino i) hk
    (fun j hj => by rw [namesIn_upd, if_neg hj])
  rw [namesIn_upd, if_pos rfl] at this
  have e : namesIn ino i k = 0 := by simp only [namesIn, h]
  rw [e] at this
  exact this

/-- Raising the bound. -/
theorem Tree.succ {ino next} (h : Tree ino next) : Tree ino (next + 1) := by
  have hc : ∀ i, nameCount ino (next + 1) i = nameCount ino next i := by
    intro i
    show sumTo _ next + _ = _
    have : namesIn ino i next = 0 := by
      simp only [namesIn]
      split
      · rfl
      · rename_i nd hn; have := h.bound hn; omega
    rw [this]; rfl
  exact ⟨h.root, Nat.lt_succ_of_lt h.seven, fun x => Nat.lt_succ_of_lt (h.bound x), h.nodup, h.leaf, h.ent, h.one, h.dots,
    h.dlink, fun a b => by rw [hc]; exact h.flink a b, h.live⟩

/-- Entering a new inode in a directory, under any number that is not in use and larger than that of the directory. -/
theorem Tree.createAt {ino next} (h : Tree ino next) {par num : Nat} {pd pd' nd0 : Inode} {name : Name}
    (hp : ino par = some pd) (hd : pd.isDir) (hl : Live ino par) (hn : Good name)
    (hfree : entGet pd.ents name = none)
    (hpd' : pd'.kind = pd.kind ∧ pd'.link = pd.link + 1 ∧ pd'.ents = entPut pd.ents name num)
    (hnew : (nd0.isDir = false ∧ nd0.ents = [] ∧ nd0.link = 1) ∨
      (nd0.isDir ∧ nd0.ents = initEnts num par ∧ nd0.link = 3))
    (hnone : ino num = none) (hlt0 : par < num) (hnn : num < next) (hn1 : num ≠ rootIno) (hn7 : num ≠ 7) :
    Tree (upd (upd ino par (some pd')) num (some nd0)) next := by
  have hb := h.bound hp
  have h7 := h.live_ne7 hl
  have h1 : rootIno < next := by obtain ⟨nd, h1, -⟩ := h.root; exact h.bound h1
  have hpr := Good.proper hn
  have hdir' : pd'.isDir = pd.isDir := by simp only [Inode.isDir, hpd'.1]
  have hnew0 : ∀ n j, (n, j) ∈ nd0.ents → ¬ Proper n := by
    intro n j hm
    rcases hnew with ⟨-, he, -⟩ | ⟨-, he, -⟩
    · rw [he] at hm; simp at hm
    · rw [he] at hm
      simp only [initEnts, List.mem_cons, Prod.mk.injEq, List.not_mem_nil, or_false] at hm
      rcases hm with ⟨rfl, -⟩ | ⟨rfl, -⟩
      · exact dot_not_proper
      · exact dotdot_not_proper
  -- view of the new table
  have hget : ∀ {i nd}, upd (upd ino par (some pd')) num (some nd0) i = some nd →
      (i = num ∧ nd = nd0) ∨ (i ≠ num ∧ i = par ∧ nd = pd') ∨ (i ≠ num ∧ i ≠ par ∧ ino i = some nd) := by
    intro i nd hi
    rw [upd_apply] at hi
    split at hi
    · rename_i e; simp only [Option.some.injEq] at hi; exact .inl ⟨e, hi.symm⟩
    · rename_i e
      rw [upd_apply] at hi
      split at hi
      · rename_i e'; simp only [Option.some.injEq] at hi; exact .inr (.inl ⟨e, e', hi.symm⟩)
      · rename_i e'; exact .inr (.inr ⟨e, e', hi⟩)
  have hold : ∀ {i nd}, ino i = some nd → ∃ nd', upd (upd ino par (some pd')) num (some nd0) i = some nd'
      ∧ nd'.isDir = nd.isDir ∧ (∀ x ∈ nd.ents, x ∈ nd'.ents) ∧
      (∀ n, ¬ Proper n → entGet nd'.ents n = entGet nd.ents n) := by
    intro i nd hi
    have hne : i ≠ num := fun e => by rw [e, hnone] at hi; cases hi
    by_cases e : i = par
    · subst e
      rw [hp] at hi; cases hi
      refine ⟨pd', by simp [hne], hdir', ?_, ?_⟩
      · rintro ⟨m, j⟩ hx
        rw [hpd'.2.2, mem_entPut]
        refine .inr ⟨hx, ?_⟩
        rintro rfl; exact entGet_none.1 hfree _ hx
      · intro n hnp
        rw [hpd'.2.2, entGet_entPut, if_neg]
        rintro rfl; exact hnp hpr
    · exact ⟨nd, by simp [hne, e, hi], rfl, fun _ hx => hx, fun _ _ => rfl⟩
  have hcount : ∀ i, nameCount (upd (upd ino par (some pd')) num (some nd0)) next i =
      nameCount ino next i + (if num = i then 1 else 0) := by
    intro i
    have e1 := nameCount_upd (o := some pd') hb hp i
    simp only [hpd'.2.2, nm_entPut hfree hpr] at e1
    have e2 := nameCount_upd_none (o := nd0) (next := next) hnn (ino := upd ino par (some pd')) (k := num) (by
      rw [upd_apply, if_neg (by omega), hnone]) i
    have e3 : nm nd0.ents i = 0 := by
      apply Classical.byContradiction
      intro hne
      obtain ⟨n, m1, m2⟩ := nm_pos.1 (Nat.pos_of_ne_zero hne)
      exact hnew0 _ _ m1 m2
    rw [e3] at e2
    omega
  constructor
  · obtain ⟨nd, h1, h2⟩ := h.root
    obtain ⟨nd', g1, g2, -⟩ := hold h1
    exact ⟨nd', g1, g2 ▸ h2⟩
  · exact h.seven
  · intro i nd hi
    rcases hget hi with ⟨rfl, -⟩ | ⟨-, rfl, -⟩ | ⟨-, -, hi⟩
    · omega
    · omega
    · have := h.bound hi; omega
  · intro i nd hi
    rcases hget hi with ⟨-, rfl⟩ | ⟨-, -, rfl⟩ | ⟨-, -, hi⟩
    · rcases hnew with ⟨-, he, -⟩ | ⟨-, he, -⟩
      · simp [he]
      · rw [he]; simp only [initEnts, List.map_cons, List.map_nil]; decide
    · rw [hpd'.2.2]; exact entPut_nodup (h.nodup hp) _ _
    · exact h.nodup hi
  · intro i nd hi hdd
    rcases hget hi with ⟨-, rfl⟩ | ⟨-, -, rfl⟩ | ⟨-, -, hi⟩
    · rcases hnew with ⟨-, he, -⟩ | ⟨he, -, -⟩
      · exact he
      · rw [he] at hdd; cases hdd
    · rw [hdir', hd] at hdd; cases hdd
    · exact h.leaf hi hdd
  · intro d nd n j hi hm hpn
    have old : ∀ {d0 nd00}, ino d0 = some nd00 → (n, j) ∈ nd00.ents → Good n ∧ j ≠ rootIno ∧ j ≠ 7 ∧
        ∃ jd, upd (upd ino par (some pd')) num (some nd0) j = some jd ∧
          (jd.isDir → entGet jd.ents dotdot = some d0 ∧ d0 < j) := by
      intro d0 nd00 hi hm
      obtain ⟨e1, e2, e3, jd, e4, e5⟩ := h.ent hi hm hpn
      obtain ⟨jd', f1, f2, -, f4⟩ := hold e4
      exact ⟨e1, e2, e3, jd', f1, fun x => by
        rw [f4 _ dotdot_not_proper]; exact e5 (f2 ▸ x)⟩
    rcases hget hi with ⟨-, rfl⟩ | ⟨-, rfl, rfl⟩ | ⟨-, -, hi⟩
    · exact absurd hpn (hnew0 _ _ hm)
    · rw [hpd'.2.2, mem_entPut] at hm
      rcases hm with ⟨rfl, rfl⟩ | ⟨hm, -⟩
      · refine ⟨hn, hn1, hn7, nd0, by simp, ?_⟩
        intro hx
        rcases hnew with ⟨he, -⟩ | ⟨-, he, -⟩
        · rw [he] at hx; cases hx
        · rw [he]; exact ⟨by simp [initEnts, entGet, dot, dotdot], hlt0⟩
      · exact old hp hm
    · exact old hi hm
  · intro d nd n m j jd hi hn' hm' hpn hpm hj hjd
    have old : ∀ {d0 nd00}, ino d0 = some nd00 → (n, j) ∈ nd00.ents → (m, j) ∈ nd00.ents → n = m := by
      intro d0 nd00 h1 h2 h3
      obtain ⟨-, -, -, jd0, e4, -⟩ := h.ent h1 h2 hpn
      obtain ⟨jd', f1, f2, -⟩ := hold e4
      rw [f1] at hj; cases hj
      exact h.one h1 h2 h3 hpn hpm e4 (f2 ▸ hjd)
    have hlt : ∀ {d0 nd00 k}, ino d0 = some nd00 → (k, num) ∈ nd00.ents → ¬ Proper k := by
      intro d0 nd00 k h1 h2 h3
      obtain ⟨-, -, -, jd0, e4, -⟩ := h.ent h1 h2 h3
      rw [hnone] at e4; cases e4
    rcases hget hi with ⟨-, rfl⟩ | ⟨-, rfl, rfl⟩ | ⟨-, -, hi⟩
    · exact absurd hpn (hnew0 _ _ hn')
    · rw [hpd'.2.2, mem_entPut] at hn' hm'
      rcases hn' with ⟨rfl, rfl⟩ | ⟨hn', -⟩
      · rcases hm' with ⟨rfl, -⟩ | ⟨hm', -⟩
        · rfl
        · exact absurd hpm (hlt hp hm')
      · rcases hm' with ⟨rfl, rfl⟩ | ⟨hm', -⟩
        · exact absurd hpn (hlt hp hn')
        · exact old hp hn' hm'
    · exact old hi hn' hm'
  · intro d nd hi hdd hd7
    rcases hget hi with ⟨rfl, rfl⟩ | ⟨-, rfl, rfl⟩ | ⟨-, -, hi⟩
    · rcases hnew with ⟨he, -⟩ | ⟨-, he, -⟩
      · rw [he] at hdd; cases hdd
      · rw [he]
        exact ⟨by simp [initEnts, entGet], par, by simp [initEnts, entGet, dot, dotdot], by omega⟩
    · have := h.dots hp hd hd7
      rw [hpd'.2.2, entGet_entPut, entGet_entPut, if_neg (fun e => hpr.1 e), if_neg (fun e => hpr.2 e)]
      exact this
    · exact h.dots hi hdd hd7
  · intro d nd hi hdd hd7
    rcases hget hi with ⟨rfl, rfl⟩ | ⟨-, rfl, rfl⟩ | ⟨-, -, hi⟩
    · rcases hnew with ⟨he, -⟩ | ⟨-, he, he'⟩
      · rw [he] at hdd; cases hdd
      · rw [he, he']; simp [initEnts]
    · have := h.dlink hp hd hd7
      rw [hpd'.2.2, hpd'.2.1, this]; simp [entPut, entDel_self hfree]
    · exact h.dlink hi hdd hd7
  · intro i nd hi hdd
    rw [hcount]
    rcases hget hi with ⟨rfl, rfl⟩ | ⟨-, rfl, rfl⟩ | ⟨hne, -, hi⟩
    · rw [nameCount_fresh h hnone]
      rcases hnew with ⟨-, -, he⟩ | ⟨he, -⟩
      · simp [he]
      · rw [he] at hdd; cases hdd
    · rw [hdir', hd] at hdd; cases hdd
    · rw [if_neg (fun e => hne e.symm)]; exact h.flink hi hdd
  · intro d nd n j hi hm hpn hroot
    have up : Live ino d → ∃ p pd m, upd (upd ino par (some pd')) num (some nd0) p = some pd ∧
        (m, d) ∈ pd.ents ∧ Proper m := by
      rintro (e | ⟨p, pd, m, e1, e2, e3⟩)
      · exact absurd e hroot
      · obtain ⟨pd'', f1, -, f3, -⟩ := hold e1
        exact ⟨p, pd'', m, f1, f3 _ e2, e3⟩
    rcases hget hi with ⟨-, rfl⟩ | ⟨-, rfl, rfl⟩ | ⟨-, -, hi⟩
    · exact absurd hpn (hnew0 _ _ hm)
    · exact up hl
    · exact up (.inr (h.live hi hm hpn hroot))

/-- Entering a new inode in a directory. -/
theorem Tree.create {ino next} (h : Tree ino next) {par : Nat} {pd pd' nd0 : Inode} {name : Name}
    (hp : ino par = some pd) (hd : pd.isDir) (hl : Live ino par) (hn : Good name)
    (hfree : entGet pd.ents name = none)
    (hpd' : pd'.kind = pd.kind ∧ pd'.link = pd.link + 1 ∧ pd'.ents = entPut pd.ents name next)
    (hnew : (nd0.isDir = false ∧ nd0.ents = [] ∧ nd0.link = 1) ∨
      (nd0.isDir ∧ nd0.ents = initEnts next par ∧ nd0.link = 3)) :
    Tree (upd (upd ino par (some pd')) next (some nd0)) (next + 1) := by
  have h1 : rootIno < next := by obtain ⟨nd, h1, -⟩ := h.root; exact h.bound h1
  have hnone : ino next = none := by
    cases hx : ino next with
    | none => rfl
    | some x => have := h.bound hx; omega
  have h7 := h.seven
  exact h.succ.createAt hp hd hl hn hfree hpd' hnew hnone (h.bound hp) (by omega) (by omega) (by omega)

/-- Entering one more name of an existing inode that is not a directory. -/
theorem Tree.addLink {ino next} (h : Tree ino next) {par i : Nat} {pd pd' nd nd' : Inode} {name : Name}
    (hp : ino par = some pd) (hd : pd.isDir) (hl : Live ino par) (hn : Good name)
    (hfree : entGet pd.ents name = none) (hi : ino i = some nd) (hnd : nd.isDir = false)
    (hi7 : i ≠ 7) (hi1 : i ≠ rootIno)
    (hnd' : nd'.kind = nd.kind ∧ nd'.link = nd.link + 1 ∧ nd'.ents = nd.ents)
    (hpd' : pd'.kind = pd.kind ∧ pd'.link = pd.link + 1 ∧ pd'.ents = entPut pd.ents name i) :
    Tree (upd (upd ino i (some nd')) par (some pd')) next := by
  have hb := h.bound hp
  have h7 := h.live_ne7 hl
  have hpr := Good.proper hn
  have hne : i ≠ par := by rintro rfl; rw [hp] at hi; cases hi; rw [hd] at hnd; cases hnd
  have hdir' : pd'.isDir = pd.isDir := by simp only [Inode.isDir, hpd'.1]
  have hdirn : nd'.isDir = nd.isDir := by simp only [Inode.isDir, hnd'.1]
  have hget : ∀ {k x}, upd (upd ino i (some nd')) par (some pd') k = some x →
      (k = par ∧ x = pd') ∨ (k ≠ par ∧ k = i ∧ x = nd') ∨ (k ≠ par ∧ k ≠ i ∧ ino k = some x) := by
    intro k x hk
    simp only [upd_apply] at hk
    grind
  have hold : ∀ {k x}, ino k = some x → ∃ x', upd (upd ino i (some nd')) par (some pd') k = some x'
      ∧ x'.isDir = x.isDir ∧ (∀ y ∈ x.ents, y ∈ x'.ents) ∧
      (∀ n, ¬ Proper n → entGet x'.ents n = entGet x.ents n) := by
    intro k x hk
    by_cases e : k = par
    · subst e
      rw [hp] at hk; cases hk
      refine ⟨pd', by simp, hdir', ?_, ?_⟩
      · rintro ⟨m, j⟩ hx
        rw [hpd'.2.2, mem_entPut]
        refine .inr ⟨hx, ?_⟩
        rintro rfl; exact entGet_none.1 hfree _ hx
      · intro n hnp
        rw [hpd'.2.2, entGet_entPut, if_neg]
        rintro rfl; exact hnp hpr
    · by_cases e' : k = i
      · subst e'
        rw [hi] at hk; cases hk
        exact ⟨nd', by simp [e], hdirn, by simp [hnd'.2.2], by simp [hnd'.2.2]⟩
      · exact ⟨x, by simp [e, e', hk], rfl, fun _ hx => hx, fun _ _ => rfl⟩
  have hcount : ∀ k, nameCount (upd (upd ino i (some nd')) par (some pd')) next k =
      nameCount ino next k + (if i = k then 1 else 0) := by
    intro k
    have hp2 : upd ino i (some nd') par = some pd := by simp [hne.symm, hp]
    have e1 := nameCount_upd (o := some pd') hb hp2 k
    simp only [hpd'.2.2, nm_entPut hfree hpr] at e1
    rw [nameCount_upd_same hi hnd'.2.2] at e1
    omega
  constructor
  · obtain ⟨nd, h1, h2⟩ := h.root
    obtain ⟨nd', g1, g2, -⟩ := hold h1
    exact ⟨nd', g1, g2 ▸ h2⟩
  · exact h.seven
  · intro k x hk
    rcases hget hk with ⟨rfl, -⟩ | ⟨-, rfl, -⟩ | ⟨-, -, hk⟩
    · exact hb
    · exact h.bound hi
    · exact h.bound hk
  · intro k x hk
    rcases hget hk with ⟨-, rfl⟩ | ⟨-, -, rfl⟩ | ⟨-, -, hk⟩
    · rw [hpd'.2.2]; exact entPut_nodup (h.nodup hp) _ _
    · rw [hnd'.2.2]; exact h.nodup hi
    · exact h.nodup hk
  · intro k x hk hdd
    rcases hget hk with ⟨-, rfl⟩ | ⟨-, -, rfl⟩ | ⟨-, -, hk⟩
    · rw [hdir', hd] at hdd; cases hdd
    · rw [hnd'.2.2]; exact h.leaf hi hnd
    · exact h.leaf hk hdd
  · intro d x n j hk hm hpn
    have old : ∀ {d0 x0}, ino d0 = some x0 → (n, j) ∈ x0.ents → Good n ∧ j ≠ rootIno ∧ j ≠ 7 ∧
        ∃ jd, upd (upd ino i (some nd')) par (some pd') j = some jd ∧
          (jd.isDir → entGet jd.ents dotdot = some d0 ∧ d0 < j) := by
      intro d0 x0 hi hm
      obtain ⟨e1, e2, e3, jd, e4, e5⟩ := h.ent hi hm hpn
      obtain ⟨jd', f1, f2, -, f4⟩ := hold e4
      exact ⟨e1, e2, e3, jd', f1, fun x => by
        rw [f4 _ dotdot_not_proper]; exact e5 (f2 ▸ x)⟩
    rcases hget hk with ⟨rfl, rfl⟩ | ⟨-, rfl, rfl⟩ | ⟨-, -, hk⟩
    · rw [hpd'.2.2, mem_entPut] at hm
      rcases hm with ⟨rfl, rfl⟩ | ⟨hm, -⟩
      · exact ⟨hn, hi1, hi7, nd', by simp [hne], fun hx => by rw [hdirn, hnd] at hx; cases hx⟩
      · exact old hp hm
    · rw [hnd'.2.2] at hm; exact old hi hm
    · exact old hk hm
  · intro d x n m j jd hk hn' hm' hpn hpm hj hjd
    have old : ∀ {d0 nd00}, ino d0 = some nd00 → (n, j) ∈ nd00.ents → (m, j) ∈ nd00.ents → n = m := by
      intro d0 nd00 h1 h2 h3
      obtain ⟨-, -, -, jd0, e4, -⟩ := h.ent h1 h2 hpn
      obtain ⟨jd', f1, f2, -⟩ := hold e4
      rw [f1] at hj; cases hj
      exact h.one h1 h2 h3 hpn hpm e4 (f2 ▸ hjd)
    have hji : j ≠ i := by
      rintro rfl
      simp [hne] at hj; subst hj
      rw [hdirn, hnd] at hjd; cases hjd
    rcases hget hk with ⟨rfl, rfl⟩ | ⟨-, rfl, rfl⟩ | ⟨-, -, hk⟩
    · rw [hpd'.2.2, mem_entPut] at hn' hm'
      rcases hn' with ⟨rfl, rfl⟩ | ⟨hn', -⟩
      · exact absurd rfl hji
      · rcases hm' with ⟨rfl, rfl⟩ | ⟨hm', -⟩
        · exact absurd rfl hji
        · exact old hp hn' hm'
    · rw [hnd'.2.2] at hn' hm'; exact old hi hn' hm'
    · exact old hk hn' hm'
  · intro d x hk hdd hd7
    rcases hget hk with ⟨rfl, rfl⟩ | ⟨-, rfl, rfl⟩ | ⟨-, -, hk⟩
    · have := h.dots hp hd hd7
      rw [hpd'.2.2, entGet_entPut, entGet_entPut, if_neg (fun e => hpr.1 e), if_neg (fun e => hpr.2 e)]
      exact this
    · rw [hdirn, hnd] at hdd; cases hdd
    · exact h.dots hk hdd hd7
  · intro d x hk hdd hd7
    rcases hget hk with ⟨rfl, rfl⟩ | ⟨-, rfl, rfl⟩ | ⟨-, -, hk⟩
    · have := h.dlink hp hd hd7
      rw [hpd'.2.2, hpd'.2.1, this]; simp [entPut, entDel_self hfree]
    · rw [hdirn, hnd] at hdd; cases hdd
    · exact h.dlink hk hdd hd7
  · intro k x hk hdd
    rw [hcount]
    rcases hget hk with ⟨rfl, rfl⟩ | ⟨-, rfl, rfl⟩ | ⟨-, hne', hk⟩
    · rw [hdir', hd] at hdd; cases hdd
    · rw [hnd'.2.1, h.flink hi hnd, if_pos rfl]
    · rw [if_neg (fun e => hne' e.symm)]; exact h.flink hk hdd
  · intro d x n j hk hm hpn hroot
    have up : Live ino d → ∃ p pd m, upd (upd ino i (some nd')) par (some pd') p = some pd ∧
        (m, d) ∈ pd.ents ∧ Proper m := by
      rintro (e | ⟨p, pd, m, e1, e2, e3⟩)
      · exact absurd e hroot
      · obtain ⟨pd'', f1, -, f3, -⟩ := hold e1
        exact ⟨p, pd'', m, f1, f3 _ e2, e3⟩
    rcases hget hk with ⟨rfl, rfl⟩ | ⟨-, rfl, rfl⟩ | ⟨-, -, hk⟩
    · exact up hl
    · rw [hnd'.2.2] at hm; exact up (.inr (h.live hi hm hpn hroot))
    · exact up (.inr (h.live hk hm hpn hroot))

/-- Removing one entry; a file loses one link, a directory must be empty. -/
theorem Tree.delEntry {ino next} (h : Tree ino next) {par i : Nat} {pd pd' nd nd' : Inode} {name : Name}
    (hp : ino par = some pd) (hd : pd.isDir) (hl : Live ino par) (hpr : Proper name)
    (hent : entGet pd.ents name = some i) (hi : ino i = some nd)
    (hk' : nd'.kind = nd.kind) (he' : nd'.ents = nd.ents)
    (hlink : (nd.isDir = false ∧ nd'.link = nd.link - 1) ∨
      (nd.isDir ∧ nd'.link = nd.link ∧ ∀ n j, (n, j) ∈ nd.ents → ¬ Proper n))
    (hpd' : pd'.kind = pd.kind ∧ pd'.link = pd.link - 1 ∧ pd'.ents = entDel pd.ents name) :
    Tree (upd (upd ino i (some nd')) par (some pd')) next := by
  have hb := h.bound hp
  have h7 := h.live_ne7 hl
  have hmem := entGet_mem hent
  obtain ⟨hgood, hi1, hi7, x, hx, hxd⟩ := h.ent hp hmem hpr
  rw [hi] at hx; cases hx
  have hne : i ≠ par := by
    rintro rfl
    rw [hp] at hi; cases hi
    have := (hxd hd).2; omega
  have hdir' : pd'.isDir = pd.isDir := by simp only [Inode.isDir, hpd'.1]
  have hdirn : nd'.isDir = nd.isDir := by simp only [Inode.isDir, hk']
  have hget : ∀ {k x}, upd (upd ino i (some nd')) par (some pd') k = some x →
      ∃ x0, ino k = some x0 ∧ x.isDir = x0.isDir ∧ (∀ y ∈ x.ents, y ∈ x0.ents) ∧
      (∀ n, ¬ Proper n → entGet x.ents n = entGet x0.ents n) ∧ (k ≠ par → x.ents = x0.ents) ∧
      (k ≠ par → k ≠ i → x.link = x0.link) ∧ (x.ents.map Prod.fst).Nodup := by
    intro k x hk
    simp only [upd_apply] at hk
    split at hk
    · rename_i e; subst e; cases hk
      refine ⟨pd, hp, hdir', ?_, ?_, by simp, by simp, hpd'.2.2 ▸ entDel_nodup (h.nodup hp) _⟩
      · rintro ⟨m, j⟩ hx
        rw [hpd'.2.2, mem_entDel] at hx; exact hx.1
      · intro n hnp
        rw [hpd'.2.2, entGet_entDel_ne]
        rintro rfl; exact hnp hpr
    · split at hk
      · rename_i _ e; subst e; cases hk
        exact ⟨nd, hi, hdirn, by simp [he'], by simp [he'], by simp [he'], by simp, he' ▸ h.nodup hi⟩
      · exact ⟨x, hk, rfl, fun _ hx => hx, fun _ _ => rfl, by simp, by simp, h.nodup hk⟩
  have hold : ∀ {k x}, ino k = some x → ∃ x', upd (upd ino i (some nd')) par (some pd') k = some x'
      ∧ x'.isDir = x.isDir ∧ (∀ n, ¬ Proper n → entGet x'.ents n = entGet x.ents n) ∧
      (∀ n j, (n, j) ∈ x.ents → j ≠ i → (n, j) ∈ x'.ents) := by
    intro k x hk
    by_cases e : k = par
    · subst e
      rw [hp] at hk; cases hk
      refine ⟨pd', by simp, hdir', ?_, ?_⟩
      · intro n hnp
        rw [hpd'.2.2, entGet_entDel_ne]
        rintro rfl; exact hnp hpr
      · intro n j hm hji
        rw [hpd'.2.2, mem_entDel]
        refine ⟨hm, ?_⟩
        rintro rfl
        rw [(entGet_iff (h.nodup hp)).2 hm] at hent
        cases hent; exact hji rfl
    · by_cases e' : k = i
      · subst e'
        rw [hi] at hk; cases hk
        exact ⟨nd', by simp [e], hdirn, by simp [he'], by simp +contextual [he']⟩
      · exact ⟨x, by simp [e, e', hk], rfl, fun _ _ => rfl, fun _ _ hx _ => hx⟩
  have hcount : ∀ k, nameCount (upd (upd ino i (some nd')) par (some pd')) next k
      + (if i = k then 1 else 0) = nameCount ino next k := by
    intro k
    have hp2 : upd ino i (some nd') par = some pd := by simp [hne.symm, hp]
    have e1 := nameCount_upd (o := some pd') hb hp2 k
    have e2 := nm_entDel (h.nodup hp) hent hpr k
    simp only [hpd'.2.2] at e1
    rw [nameCount_upd_same hi he'] at e1
    omega
  constructor
  · obtain ⟨nd, h1, h2⟩ := h.root
    obtain ⟨nd', g1, g2, -⟩ := hold h1
    exact ⟨nd', g1, g2 ▸ h2⟩
  · exact h.seven
  · intro k x hk
    obtain ⟨x0, g1, -⟩ := hget hk
    exact h.bound g1
  · intro k x hk
    obtain ⟨x0, g1, -, -, -, -, -, g⟩ := hget hk
    exact g
  · intro k x hk hdd
    obtain ⟨x0, g1, g2, g3, -⟩ := hget hk
    have := h.leaf g1 (g2 ▸ hdd)
    rw [this] at g3
    exact List.eq_nil_iff_forall_not_mem.2 (fun y hy => by simpa using g3 y hy)
  · intro d x n j hk hm hpn
    obtain ⟨x0, g1, g2, g3, -⟩ := hget hk
    obtain ⟨e1, e2, e3, jd, e4, e5⟩ := h.ent g1 (g3 _ hm) hpn
    obtain ⟨jd', f1, f2, f3, -⟩ := hold e4
    exact ⟨e1, e2, e3, jd', f1, fun x => by rw [f3 _ dotdot_not_proper]; exact e5 (f2 ▸ x)⟩
  · intro d x n m j jd hk hn' hm' hpn hpm hj hjd
    obtain ⟨x0, g1, g2, g3, -⟩ := hget hk
    obtain ⟨j0, f1, f2, -⟩ := hget hj
    exact h.one g1 (g3 _ hn') (g3 _ hm') hpn hpm f1 (f2 ▸ hjd)
  · intro d x hk hdd hd7
    obtain ⟨x0, g1, g2, g3, g4, -⟩ := hget hk
    have := h.dots g1 (g2 ▸ hdd) hd7
    rw [g4 _ dot_not_proper, g4 _ dotdot_not_proper]; exact this
  · intro d x hk hdd hd7
    obtain ⟨x0, g1, g2, g3, g4, g5, g6, -⟩ := hget hk
    by_cases e : d = par
    · subst e
      rw [hp] at g1; cases g1
      simp at hk; subst hk
      have e1 := h.dlink hp hd hd7
      have e2 := entDel_length (h.nodup hp) hent
      rw [hpd'.2.1, hpd'.2.2]; omega
    · rw [g5 e]
      by_cases e' : d = i
      · subst e'
        simp [e] at hk; subst hk
        rw [hi] at g1; cases g1
        rcases hlink with ⟨a, -⟩ | ⟨-, b, -⟩
        · rw [hdirn, a] at hdd; cases hdd
        · rw [b]; exact h.dlink hi (hdirn ▸ hdd) hd7
      · rw [g6 e e']; exact h.dlink g1 (g2 ▸ hdd) hd7
  · intro k x hk hdd
    have hc := hcount k
    obtain ⟨x0, g1, g2, g3, g4, g5, g6, -⟩ := hget hk
    have e0 := h.flink g1 (g2 ▸ hdd)
    by_cases e : k = par
    · subst e
      simp at hk; subst hk
      rw [hdir', hd] at hdd; cases hdd
    · by_cases e' : k = i
      · subst e'
        simp [e] at hk; subst hk
        rw [hi] at g1; cases g1
        rcases hlink with ⟨-, a⟩ | ⟨b, -⟩
        · simp at hc; omega
        · rw [hdirn, b] at hdd; cases hdd
      · rw [g6 e e', e0, ← hc, if_neg (fun q => e' q.symm)]; rfl
  · intro d x n j hk hm hpn hroot
    obtain ⟨x0, g1, g2, g3, -⟩ := hget hk
    obtain ⟨p, pd0, m, e1, e2, e3⟩ := h.live g1 (g3 _ hm) hpn hroot
    obtain ⟨pd'', f1, -, -, f4⟩ := hold e1
    refine ⟨p, pd'', m, f1, f4 _ _ e2 ?_, e3⟩
    rintro rfl
    rw [hi] at g1; cases g1
    rcases hlink with ⟨a, -⟩ | ⟨-, -, b⟩
    · have := g3 _ hm
      rw [h.leaf hi a] at this; simp at this
    · exact b _ _ (g3 _ hm) hpn

/-- Removing an inode that has neither names nor proper entries. -/
theorem Tree.remove {ino next} (h : Tree ino next) {i : Nat} {nd : Inode} (hi : ino i = some nd)
    (h1 : i ≠ rootIno) (hz : nameCount ino next i = 0)
    (he : ∀ n j, (n, j) ∈ nd.ents → ¬ Proper n) : Tree (upd ino i none) next := by
  have hget : ∀ {k x}, upd ino i none k = some x → k ≠ i ∧ ino k = some x := by
    intro k x hk
    simp only [upd_apply] at hk
    split at hk
    · cases hk
    · rename_i e; exact ⟨e, hk⟩
  have hold : ∀ {k x}, ino k = some x → k ≠ i → upd ino i none k = some x := by
    intro k x hk e; simp [e, hk]
  have hcount : ∀ k, nameCount (upd ino i none) next k = nameCount ino next k := by
    intro k
    have e1 := nameCount_upd (o := none) (h.bound hi) hi k
    have : nm nd.ents k = 0 := by
      apply Classical.byContradiction
      intro hne
      obtain ⟨n, m1, m2⟩ := nm_pos.1 (Nat.pos_of_ne_zero hne)
      exact he _ _ m1 m2
    simp only [this] at e1
    exact e1
  constructor
  · obtain ⟨nd, g1, g2⟩ := h.root
    exact ⟨nd, hold g1 (fun e => h1 e.symm), g2⟩
  · exact h.seven
  · intro k x hk; exact h.bound (hget hk).2
  · intro k x hk; exact h.nodup (hget hk).2
  · intro k x hk; exact h.leaf (hget hk).2
  · intro d x n j hk hm hpn
    obtain ⟨e1, e2, e3, jd, e4, e5⟩ := h.ent (hget hk).2 hm hpn
    refine ⟨e1, e2, e3, jd, hold e4 ?_, e5⟩
    rintro rfl
    exact nameCount_zero h hz (hget hk).2 hm hpn
  · intro d x n m j jd hk hn' hm' hpn hpm hj hjd
    exact h.one (hget hk).2 hn' hm' hpn hpm (hget hj).2 hjd
  · intro d x hk; exact h.dots (hget hk).2
  · intro d x hk; exact h.dlink (hget hk).2
  · intro k x hk; rw [hcount]; exact h.flink (hget hk).2
  · intro d x n j hk hm hpn hroot
    obtain ⟨p, pd0, m, e1, e2, e3⟩ := h.live (hget hk).2 hm hpn hroot
    refine ⟨p, pd0, m, hold e1 ?_, e2, e3⟩
    rintro rfl
    rw [hi] at e1; cases e1
    exact he _ _ e2 e3

/-- Giving an entry another, free name in the same directory. -/
theorem Tree.rename {ino next} (h : Tree ino next) {par i : Nat} {pd pd' : Inode} {o n : Name}
    (hp : ino par = some pd) (hd : pd.isDir) (hl : Live ino par) (ho : Proper o) (hn : Good n)
    (hent : entGet pd.ents o = some i) (hfree : entGet pd.ents n = none)
    (hpd' : pd'.kind = pd.kind ∧ pd'.link = pd.link ∧ pd'.ents = entDel (entPut pd.ents n i) o) :
    Tree (upd ino par (some pd')) next := by
  have hb := h.bound hp
  have h7 := h.live_ne7 hl
  have hmem := entGet_mem hent
  have hpn := Good.proper hn
  have hon : o ≠ n := by rintro rfl; rw [hent] at hfree; cases hfree
  obtain ⟨hgood, hi1, hi7, nd, hi, hxd⟩ := h.ent hp hmem ho
  have hne : i ≠ par := by
    rintro rfl
    rw [hp] at hi; cases hi
    have := (hxd hd).2; omega
  have hdir' : pd'.isDir = pd.isDir := by simp only [Inode.isDir, hpd'.1]
  have hndp := entPut_nodup (h.nodup hp) n i
  have hentp : entGet (entPut pd.ents n i) o = some i := by
    rw [entGet_entPut, if_neg (fun e => hon e.symm)]; exact hent
  have hmem' : ∀ {m j}, (m, j) ∈ pd'.ents ↔ (m = n ∧ j = i) ∨ ((m, j) ∈ pd.ents ∧ m ≠ o) := by
    intro m j
    rw [hpd'.2.2, mem_entDel, mem_entPut]
    constructor
    · rintro ⟨(⟨rfl, rfl⟩ | ⟨a, b⟩), c⟩
      · exact .inl ⟨rfl, rfl⟩
      · exact .inr ⟨a, c⟩
    · rintro (⟨rfl, rfl⟩ | ⟨a, b⟩)
      · exact ⟨.inl ⟨rfl, rfl⟩, fun e => hon e.symm⟩
      · refine ⟨.inr ⟨a, ?_⟩, b⟩
        rintro rfl; exact entGet_none.1 hfree _ a
  have hdots : ∀ m, ¬ Proper m → entGet pd'.ents m = entGet pd.ents m := by
    intro m hm
    rw [hpd'.2.2, entGet_entDel_ne (by rintro rfl; exact hm ho), entGet_entPut,
      if_neg (by rintro rfl; exact hm hpn)]
  have hsome : ∀ {m j}, (m, j) ∈ pd'.ents → Proper m → ∃ m', (m', j) ∈ pd.ents ∧ Proper m' := by
    intro m j hm hpm
    rcases hmem'.1 hm with ⟨rfl, rfl⟩ | ⟨a, b⟩
    · exact ⟨o, hmem, ho⟩
    · exact ⟨m, a, hpm⟩
  have hsome' : ∀ {m j}, (m, j) ∈ pd.ents → Proper m → ∃ m', (m', j) ∈ pd'.ents ∧ Proper m' := by
    intro m j hm hpm
    by_cases e : m = o
    · subst e
      rw [(entGet_iff (h.nodup hp)).2 hm] at hent; cases hent
      exact ⟨n, hmem'.2 (.inl ⟨rfl, rfl⟩), hpn⟩
    · exact ⟨m, hmem'.2 (.inr ⟨hm, e⟩), hpm⟩
  have hget : ∀ {k x}, upd ino par (some pd') k = some x →
      (k = par ∧ x = pd') ∨ (k ≠ par ∧ ino k = some x) := by
    intro k x hk
    simp only [upd_apply] at hk
    split at hk
    · rename_i e; cases hk; exact .inl ⟨e, rfl⟩
    · rename_i e; exact .inr ⟨e, hk⟩
  have hold : ∀ {k x}, ino k = some x → ∃ x', upd ino par (some pd') k = some x'
      ∧ x'.isDir = x.isDir ∧ (∀ m, ¬ Proper m → entGet x'.ents m = entGet x.ents m) ∧
      (∀ m j, (m, j) ∈ x.ents → Proper m → ∃ m', (m', j) ∈ x'.ents ∧ Proper m') := by
    intro k x hk
    by_cases e : k = par
    · subst e
      rw [hp] at hk; cases hk
      exact ⟨pd', by simp, hdir', hdots, fun m j => hsome'⟩
    · exact ⟨x, by simp [e, hk], rfl, fun _ _ => rfl, fun m j a b => ⟨m, a, b⟩⟩
  have hcount : ∀ k, nameCount (upd ino par (some pd')) next k = nameCount ino next k := by
    intro k
    have e1 := nameCount_upd (o := some pd') hb hp k
    have e2 := nm_entDel hndp hentp ho k
    rw [nm_entPut hfree hpn] at e2
    simp only [hpd'.2.2] at e1
    omega
  constructor
  · obtain ⟨nd, h1, h2⟩ := h.root
    obtain ⟨nd', g1, g2, -⟩ := hold h1
    exact ⟨nd', g1, g2 ▸ h2⟩
  · exact h.seven
  · intro k x hk
    rcases hget hk with ⟨rfl, -⟩ | ⟨-, hk⟩
    · exact hb
    · exact h.bound hk
  · intro k x hk
    rcases hget hk with ⟨-, rfl⟩ | ⟨-, hk⟩
    · rw [hpd'.2.2]; exact entDel_nodup hndp _
    · exact h.nodup hk
  · intro k x hk hdd
    rcases hget hk with ⟨-, rfl⟩ | ⟨-, hk⟩
    · rw [hdir', hd] at hdd; cases hdd
    · exact h.leaf hk hdd
  · intro d x m j hk hm hpm
    have old : ∀ {d0 x0 m'}, ino d0 = some x0 → (m', j) ∈ x0.ents → Proper m' → Good m' ∧ j ≠ rootIno ∧ j ≠ 7 ∧
        ∃ jd, upd ino par (some pd') j = some jd ∧
          (jd.isDir → entGet jd.ents dotdot = some d0 ∧ d0 < j) := by
      intro d0 x0 m' hi hm hpm
      obtain ⟨e1, e2, e3, jd, e4, e5⟩ := h.ent hi hm hpm
      obtain ⟨jd', f1, f2, f4, -⟩ := hold e4
      exact ⟨e1, e2, e3, jd', f1, fun x => by
        rw [f4 _ dotdot_not_proper]; exact e5 (f2 ▸ x)⟩
    rcases hget hk with ⟨rfl, rfl⟩ | ⟨-, hk⟩
    · rcases hmem'.1 hm with ⟨rfl, rfl⟩ | ⟨a, b⟩
      · obtain ⟨-, e⟩ := old hp hmem ho
        exact ⟨hn, e⟩
      · exact old hp a hpm
    · exact old hk hm hpm
  · intro d x a b j jd hk ha hb' hpa hpb hj hjd
    have hj0 : ∃ j0, ino j = some j0 ∧ j0.isDir := by
      rcases hget hj with ⟨rfl, rfl⟩ | ⟨-, hj⟩
      · exact ⟨pd, hp, hd⟩
      · exact ⟨jd, hj, hjd⟩
    obtain ⟨j0, f1, f2⟩ := hj0
    rcases hget hk with ⟨rfl, rfl⟩ | ⟨-, hk⟩
    · rcases hmem'.1 ha with ⟨rfl, rfl⟩ | ⟨a1, a2⟩
      · rcases hmem'.1 hb' with ⟨rfl, -⟩ | ⟨b1, b2⟩
        · rfl
        · exact absurd (h.one hp b1 hmem hpb ho f1 f2) b2
      · rcases hmem'.1 hb' with ⟨rfl, rfl⟩ | ⟨b1, b2⟩
        · exact absurd (h.one hp a1 hmem hpa ho f1 f2) a2
        · exact h.one hp a1 b1 hpa hpb f1 f2
    · exact h.one hk ha hb' hpa hpb f1 f2
  · intro d x hk hdd hd7
    rcases hget hk with ⟨rfl, rfl⟩ | ⟨-, hk⟩
    · rw [hdots _ dot_not_proper, hdots _ dotdot_not_proper]; exact h.dots hp hd hd7
    · exact h.dots hk hdd hd7
  · intro d x hk hdd hd7
    rcases hget hk with ⟨rfl, rfl⟩ | ⟨-, hk⟩
    · have e1 := h.dlink hp hd hd7
      have e2 := entDel_length hndp hentp
      have e3 : (entPut pd.ents n i).length = pd.ents.length + 1 := by simp [entPut, entDel_self hfree]
      rw [hpd'.2.1, hpd'.2.2]; omega
    · exact h.dlink hk hdd hd7
  · intro k x hk hdd
    rw [hcount]
    rcases hget hk with ⟨rfl, rfl⟩ | ⟨-, hk⟩
    · rw [hdir', hd] at hdd; cases hdd
    · exact h.flink hk hdd
  · intro d x m j hk hm hpm hroot
    have : ∃ p pd0 m, ino p = some pd0 ∧ (m, d) ∈ pd0.ents ∧ Proper m := by
      rcases hget hk with ⟨rfl, rfl⟩ | ⟨-, hk⟩
      · obtain ⟨m', a, b⟩ := hsome hm hpm
        exact h.live hp a b hroot
      · exact h.live hk hm hpm hroot
    obtain ⟨p, pd0, m, e1, e2, e3⟩ := this
    obtain ⟨pd'', f1, -, -, f4⟩ := hold e1
    obtain ⟨m', g1, g2⟩ := f4 _ _ e2 e3
    exact ⟨p, pd'', m', f1, g1, g2⟩

end Verif.Fs
