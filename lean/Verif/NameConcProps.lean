import Verif.NameConcSim

/-! Concurrent path calls that keep out of each other's way behave like calls one after the other. -/

namespace Verif.NameConc
open Verif.Path Verif.Fs

/-- C65.  Start from any file system that satisfies the invariant of the sequential model, with any number of threads, and
take any schedule of their critical sections in which a call
begins only while no call is under way that changes a path on its way (`Disciplined`).  Then the program does not
abort, and the calls and returns of the schedule, in their order, are those of a run of the specification, in which every call
happens at one moment between its beginning and its return (`Abs.Runs`).  When no call is under way, the file system, the open
descriptors and the data are those of the specification, up to the order of entries in directories.
Results are equal, except that `stat` may report another number of links (`stat_counts_violated`). -/
theorem linearizable_partial {fs : Fs} {held : Nat → Nat} (h : FsInv fs held) {as : List Act}
    (ha : Disciplined (init fs held) as) :
    (run (init fs held) as).dead = false ∧
    ∃ B : Abs, Abs.Runs ⟨fs, held, fun _ => none⟩ (trace (init fs held) as) B ∧ FsInv B.fs B.held ∧
      ((∀ t, (run (init fs held) as).pc t = .idle) →
        SameFs (run (init fs held) as).fs B.fs ∧ (run (init fs held) as).held = B.held ∧ ∀ t, B.pend t = none) := by
  obtain ⟨N, hN⟩ := tid_bound as
  obtain ⟨B, h1, R⟩ := sim_run (rel_init h) hN ha
  refine ⟨R.alive, B, h1, R.inv, fun hi => ?_⟩
  obtain ⟨e1, e2⟩ := R.same hi
  refine ⟨e1, e2, fun t => ?_⟩
  rcases Option.eq_none_or_eq_some (B.pend t) with hp | ⟨⟨c, o⟩, hp⟩
  · exact hp
  · have := R.thr t c o hp
    rw [hi] at this; exact this.elim

/-! ## The invariant at rest -/

theorem SameFs.some' {a b : Fs} (h : SameFs a b) {i : Nat} {x : Inode} (hx : a.inodes i = some x) :
    ∃ y, b.inodes i = some y ∧ x.ents.Perm y.ents ∧ x.kind = y.kind ∧ x.mode = y.mode ∧ x.size = y.size ∧ x.link = y.link ∧ x.ref = y.ref := by
  rcases Option.eq_none_or_eq_some (b.inodes i) with hy | ⟨y, hy⟩
  · rw [(h.gone i).2 hy] at hx; cases hx
  · obtain ⟨h1, h2⟩ := h.node i x y hx hy
    refine ⟨y, hy, h1, ?_⟩
    simp only [Inode.mk.injEq] at h2
    exact ⟨h2.1, h2.2.1, h2.2.2.1, h2.2.2.2.1, h2.2.2.2.2.1⟩

theorem SameFs.symm {a b : Fs} (h : SameFs a b) : SameFs b a :=
  ⟨h.next.symm, fun i => (h.fobj i).symm, fun i => (h.disk i).symm, fun i => (h.gone i).symm,
    fun i x y hx hy => ⟨(h.node i y x hy hx).1.symm, (h.node i y x hy hx).2.symm⟩⟩

theorem entGet_perm {l l' : List (Name × Nat)} (h : l.Perm l') (hn : (l.map Prod.fst).Nodup) (n : Name) : entGet l n = entGet l' n := by
  have hn' : (l'.map Prod.fst).Nodup := (h.map Prod.fst).nodup_iff.1 hn
  rcases Option.eq_none_or_eq_some (entGet l' n) with e | ⟨k, e⟩
  · rw [e, entGet_none]
    intro j hj
    exact (entGet_none.1 e) j (h.mem_iff.1 hj)
  · rw [e]
    exact (entGet_iff hn).2 (h.mem_iff.2 ((entGet_iff hn').1 e))

theorem SameFs.tree {a b : Fs} (h : SameFs a b) (T : Tree b.inodes b.next) : Tree a.inodes a.next := by
  have dir : ∀ {x y : Inode}, x.kind = y.kind → x.isDir = y.isDir := kind_dir
  have nod : ∀ {d nd}, a.inodes d = some nd → (nd.ents.map Prod.fst).Nodup := by
    intro d nd hd
    obtain ⟨y, hy, hp, -⟩ := h.some' hd
    exact (hp.map Prod.fst).nodup_iff.2 (T.nodup hy)
  have names : ∀ i d, namesIn a.inodes i d = namesIn b.inodes i d := by
    intro i d
    simp only [namesIn]
    rcases Option.eq_none_or_eq_some (a.inodes d) with hx | ⟨x, hx⟩
    · rw [hx, (h.gone d).1 hx]
    · obtain ⟨y, hy, hp, -⟩ := h.some' hx
      rw [hx, hy]
      exact hp.countP_eq _
  constructor
  · obtain ⟨y, hy, hd⟩ := T.root
    obtain ⟨x, hx, -, hk, -⟩ := h.symm.some' hy
    exact ⟨x, hx, by rw [← dir hk]; exact hd⟩
  · rw [h.next]; exact T.seven
  · intro i x hx
    obtain ⟨y, hy, -⟩ := h.some' hx
    rw [h.next]; exact T.bound hy
  · exact nod
  · intro d x hx hd
    obtain ⟨y, hy, hp, hk, -⟩ := h.some' hx
    have := T.leaf hy (by rw [← dir hk]; exact hd)
    rw [this] at hp; exact hp.eq_nil
  · intro d x n j hx hm hn
    obtain ⟨y, hy, hp, hk, -⟩ := h.some' hx
    obtain ⟨g1, g2, g3, jd, g4, g5⟩ := T.ent hy (hp.mem_iff.1 hm) hn
    obtain ⟨jx, hj, hjp, hjk, -⟩ := h.symm.some' g4
    refine ⟨g1, g2, g3, jx, hj, fun hd => ?_⟩
    rw [← dir hjk] at hd
    obtain ⟨e1, e2⟩ := g5 hd
    exact ⟨by rw [← entGet_perm hjp (T.nodup g4)]; exact e1, e2⟩
  · intro d x n m j jx hx hn hm pn pm hj hd
    obtain ⟨y, hy, hp, hk, -⟩ := h.some' hx
    obtain ⟨jy, hjy, -, hjk, -⟩ := h.some' hj
    exact T.one hy (hp.mem_iff.1 hn) (hp.mem_iff.1 hm) pn pm hjy (by rw [← dir hjk]; exact hd)
  · intro d x hx hd h7
    obtain ⟨y, hy, hp, hk, -⟩ := h.some' hx
    obtain ⟨e1, p, e2, e3⟩ := T.dots hy (by rw [← dir hk]; exact hd) h7
    exact ⟨by rw [entGet_perm hp (nod hx)]; exact e1, p, by rw [entGet_perm hp (nod hx)]; exact e2, e3⟩
  · intro d x hx hd h7
    obtain ⟨y, hy, hp, hk, -, -, hl, -⟩ := h.some' hx
    rw [hl, hp.length_eq]
    exact T.dlink hy (by rw [← dir hk]; exact hd) h7
  · intro i x hx hd
    obtain ⟨y, hy, hp, hk, -, -, hl, -⟩ := h.some' hx
    rw [hl, T.flink hy (by rw [← dir hk]; exact hd), h.next]
    unfold nameCount
    rw [funext (names i)]
  · intro d x n j hx hm hn hr
    obtain ⟨y, hy, hp, -⟩ := h.some' hx
    obtain ⟨p, pd, m, e1, e2, e3⟩ := T.live hy (hp.mem_iff.1 hm) hn hr
    obtain ⟨px, hpx, hpp, -⟩ := h.symm.some' e1
    exact ⟨p, px, m, hpx, hpp.mem_iff.1 e2, e3⟩

theorem SameFs.inv {a b : Fs} {held : Nat → Nat} (h : SameFs a b) (hi : FsInv b held) : FsInv a held := by
  refine ⟨h.tree hi.tree, fun i => ?_, hi.c7⟩
  have hl := hi.loc i
  rw [h.fobj, h.disk]
  rcases Option.eq_none_or_eq_some (a.inodes i) with hx | ⟨x, hx⟩
  · rw [hx]; rw [(h.gone i).1 hx] at hl; exact hl
  · obtain ⟨y, hy, -, e1, e2, e3, e4, e5⟩ := h.some' hx
    rw [hx]; rw [hy] at hl
    simp only [LocalAt, e1, e3, e4, e5] at hl ⊢
    exact hl

/-- C65.  After such a schedule, when no call is under way: the directories form a tree, every entry leads to an inode,
every file has as many links as names and a directory as many as its entries require, and every count of open descriptors is exact. -/
theorem rest_sound_partial {fs : Fs} {held : Nat → Nat} (h : FsInv fs held) {as : List Act}
    (ha : Disciplined (init fs held) as) (hi : ∀ t, (run (init fs held) as).pc t = .idle) :
    FsInv (run (init fs held) as).fs (run (init fs held) as).held := by
  obtain ⟨-, B, -, hB, hr⟩ := linearizable_partial h ha
  obtain ⟨e1, e2, -⟩ := hr hi
  rw [e2]; exact e1.inv hB

end Verif.NameConc
