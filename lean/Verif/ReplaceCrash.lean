import Verif.ReplaceProps
import Verif.RecoveryWitness

/-! # C26, C103: a crash after a `rename` over a name in use -/

namespace Verif.Recovery
open Verif.Path Verif.Fs Verif.Kernel

/-- What a crash leaves, whatever the table looks like. -/
theorem crash_point {D : Nat → Prop} {b : Snap} {fs : Fs} (hp : Pend (view D) b [] fs) :
    (∀ i nd', (recover b fs.log).inodes i = some nd' → ∃ nd, fs.inodes i = some nd ∧ view D i nd' = view D i nd) ∧
    (∀ i nd, fs.inodes i = some nd → keeps nd = true → ∃ nd', (recover b fs.log).inodes i = some nd' ∧ view D i nd' = view D i nd) := by
  have hpt : ∀ i, (∃ x y, replay b.inodes fs.log i = some x ∧ fs.inodes i = some y ∧ view D i x = view D i y) ∨
      (replay b.inodes fs.log i = none ∧ fs.inodes i = none) := by
    intro i
    have h1 := hp.same i (by simp)
    cases hr : replay b.inodes fs.log i <;> cases hx : fs.inodes i <;> rw [hr, hx] at h1
    · exact .inr ⟨rfl, rfl⟩
    · cases h1
    · cases h1
    · exact .inl ⟨_, _, rfl, rfl, by simpa using h1⟩
  have hk : ∀ x y, SamePlace x y → keeps x = keeps y := by
    rintro x y ⟨h1, h2, -⟩
    simp only [keeps, h1, h2]
  refine ⟨?_, ?_⟩
  · intro i nd' hi
    simp only [recover, fsck] at hi
    rcases hpt i with ⟨x, y, h1, h2, h3⟩ | ⟨h1, h2⟩
    · rw [h1] at hi
      dsimp only at hi
      split at hi
      · cases hi; exact ⟨y, h2, h3⟩
      · cases hi
    · rw [h1] at hi; cases hi
  · intro i nd hi hkn
    rcases hpt i with ⟨x, y, h1, h2, h3⟩ | ⟨h1, h2⟩
    · rw [hi] at h2; cases h2
      refine ⟨x, ?_, h3⟩
      simp only [recover, fsck, h1]
      rw [if_pos (by rw [hk _ _ (view_place h3).1]; exact hkn)]
    · rw [hi] at h2; cases h2

/-- A way whose nodes all are kept. -/
theorem walk_keep {a a' : Nat → Option Inode} {Q : Nat → Prop}
    (hkeep : ∀ i nd, a i = some nd → Q i → ∃ nd', a' i = some nd' ∧ SamePlace nd' nd)
    (hdown : ∀ i nd n j, a i = some nd → (n, j) ∈ nd.ents → Proper n → Q j)
    {d e : Nat} {ns : List Name} (hw : Walk a d ns e) (hns : ∀ n ∈ ns, Proper n) (hd : Q d) : Walk a' d ns e ∧ Q e := by
  induction hw with
  | here => exact ⟨.here _, hd⟩
  | down h1 h2 h3 _ ih =>
    obtain ⟨nd', g1, g2, -, g3⟩ := hkeep _ _ h1 hd
    have := ih (fun n hn => hns n (by simp [hn])) (hdown _ _ _ _ h1 h3 (hns _ (by simp)))
    refine ⟨.down g1 ?_ (by rw [g3]; exact h3) this.1, this.2⟩
    simp only [Inode.isDir] at h2 ⊢; rw [g2]; exact h2

theorem walk_sub {a a' : Nat → Option Inode} (hsub : ∀ i nd', a' i = some nd' → ∃ nd, a i = some nd ∧ SamePlace nd' nd)
    {d e : Nat} {ns : List Name} (hw : Walk a' d ns e) : Walk a d ns e := by
  induction hw with
  | here => exact .here _
  | down h1 h2 h3 _ ih =>
    obtain ⟨nd, g1, g2, -, g3⟩ := hsub _ _ h1
    refine .down g1 ?_ (by rw [← g3]; exact h3) ih
    simp only [Inode.isDir] at h2 ⊢; rw [← g2]; exact h2

/-- C26, C103.  A crash right after a `rename` over a name in use, in the same directory: after the start every path leads to what it led to, the new
name to the renamed file.  (`crash_paths_partial` is about histories without such a call.) -/
theorem crash_over_partial {D : Nat → Prop} {b : Snap} {s : State} (h : Sess D b s) {c : Nat} {cg : Cage} (hc : s.cages c = some cg) {old new : Str}
    (hne1 : old ≠ []) (hne2 : new ≠ []) {i k : Nat} (hi : Leads s cg old i) (hk : Leads s cg new k) {ps : List Name} {o n : Name}
    (ho : cg.path old = ps ++ [o]) (hn : cg.path new = ps ++ [n]) (hon : o ≠ n) :
    ∃ s', reboot (diskOf b (step s c (.rename old new)).1.fs) = some s' ∧ SameTree D (step s c (.rename old new)).1 s' := by
  have T := h.life.inv.fs.tree
  obtain ⟨-, -, -, ⟨d, hd, he, he'⟩, hsame, -, -⟩ := rename_over_inv h.life.inv hc hne1 hne2 hi hk ho hn hon
  have hp : Pend (view D) b [] (step s c (.rename old new)).1.fs := by
    have := (sess_pend h).rename (view_blind D) (cg.path old) (cg.path new)
    simp only [step, hc, nonEmpty, hne1, hne2, if_false, State.onFs]
    exact this
  generalize (step s c (.rename old new)).1 = s1 at *
  refine ⟨_, reboot_crash b s1, ?_⟩
  obtain ⟨h1, h2⟩ := crash_point hp
  have hkeeps : ∀ j nd, s1.fs.inodes j = some nd → ¬ Loose s.fs.inodes s.fs.next j → keeps nd = true := by
    intro j nd hj hl
    obtain ⟨⟨q1, -⟩, q2⟩ := hsame j
    rw [hj] at q2
    cases hx : s.fs.inodes j with
    | none => rw [hx] at q2; cases q2
    | some x =>
      obtain ⟨y, y1, y2, -⟩ := q1 x hx
      rw [hj] at y1; cases y1
      rw [hx] at q2
      have e : nd.link = x.link := by simpa using q2
      have : keeps x = true := by
        rcases fsck_drops T (sess_pend h).nosock j with h4 | ⟨-, h4⟩
        · simp only [fsck, hx] at h4
          by_cases hkk : keeps x = true
          · exact hkk
          · rw [if_neg hkk] at h4; cases h4
        · exact absurd h4 hl
      simpa only [keeps, y2, e] using this
  have hroot : ∃ nd, s.fs.inodes rootIno = some nd := by obtain ⟨nd, r1, -⟩ := T.root; exact ⟨nd, r1⟩
  have hgi : ∀ m ∈ cg.path old, Proper m := fun m hm => Good.proper (h.life.inv.gp hc old m hm)
  have hQi : ¬ Loose s.fs.inodes s.fs.next i ∧ ∃ nd, s.fs.inodes i = some nd := ⟨walk_not_loose T hi hgi root_not_loose, Walk.exists T hi hgi hroot⟩
  have hdown : ∀ x nd m j, s1.fs.inodes x = some nd → (m, j) ∈ nd.ents → Proper m →
      ¬ Loose s.fs.inodes s.fs.next j ∧ ∃ nd, s.fs.inodes j = some nd := by
    intro x nd m j hx hm hpm
    have hE : Entry s1 x m j := (entry_iff hx).2 hm
    have pre : Entry s x m j → ¬ Loose s.fs.inodes s.fs.next j ∧ ∃ nd, s.fs.inodes j = some nd := by
      intro hE
      cases hy : s.fs.inodes x with
      | none => simp [Entry, entries, hy] at hE
      | some y =>
        obtain ⟨-, -, -, jd, hj, -⟩ := T.ent hy ((entry_iff hy).1 hE) hpm
        exact ⟨not_loose_of_named T hy ((entry_iff hy).1 hE) hpm, jd, hj⟩
    by_cases e : x = d
    · subst e
      rcases (he m j).1 hE with ⟨-, rfl⟩ | ⟨-, -, a⟩
      · exact hQi
      · exact pre a
    · exact pre ((he' x m j e).1 hE)
  have hkeep : ∀ j nd, s1.fs.inodes j = some nd → ¬ Loose s.fs.inodes s.fs.next j →
      ∃ nd', (boot (start (recover b s1.fs.log) s1.fs.disk)).fs.inodes j = some nd' ∧ SamePlace nd' nd ∧ nd'.mode = nd.mode ∧
        (¬ D j → nd'.size = nd.size) ∧ (nd.kind = .file → (boot (start (recover b s1.fs.log) s1.fs.disk)).fs.disk j = s1.fs.disk j) := by
    intro j nd hj hl
    obtain ⟨nd', g1, g2⟩ := h2 j nd hj (hkeeps j nd hj hl)
    obtain ⟨g3, g4, g5⟩ := view_place g2
    obtain ⟨hdk, -, ⟨a, -⟩ | ⟨x, r, a, a'⟩⟩ := boot_at (start (recover b s1.fs.log) s1.fs.disk) j
    · simp only [start] at a; rw [g1] at a; cases a
    · simp only [start] at a; rw [g1] at a; cases a
      refine ⟨_, a', g3, g4, g5, ?_⟩
      intro hk
      rw [hdk]
      simp only [start, g1]
      rw [if_pos (by simp only [Inode.isFile, g3.1, hk])]
  intro ns hns j
  have hpr : ∀ n ∈ ns, Proper n := fun n hn => Good.proper (hns n hn)
  have fwd : Walk s1.fs.inodes rootIno ns j → Walk (boot (start (recover b s1.fs.log) s1.fs.disk)).fs.inodes rootIno ns j ∧
      ¬ Loose s.fs.inodes s.fs.next j ∧ ∃ nd, s.fs.inodes j = some nd := fun hw =>
    walk_keep (Q := fun j => ¬ Loose s.fs.inodes s.fs.next j ∧ ∃ nd, s.fs.inodes j = some nd)
      (fun x nd hx hq => let ⟨nd', a, b, _⟩ := hkeep x nd hx hq.1; ⟨nd', a, b⟩) hdown hw hpr ⟨root_not_loose, hroot⟩
  refine ⟨⟨walk_sub ?_, fun hw => (fwd hw).1⟩, ?_⟩
  · intro x nd' hx
    obtain ⟨-, -, ⟨-, a⟩ | ⟨y, r, a, a'⟩⟩ := boot_at (start (recover b s1.fs.log) s1.fs.disk) x
    · rw [a] at hx; cases hx
    · rw [a'] at hx; cases hx
      obtain ⟨nd, g1, g2⟩ := h1 x y a
      exact ⟨nd, g1, (view_place g2).1⟩
  · intro hw
    obtain ⟨hl, x, hx⟩ := (fwd hw).2
    obtain ⟨nd, hnd, -⟩ := (hsame j).1.1 x hx
    obtain ⟨nd', g1, ⟨g2, g3, g4⟩, g5, g6, g7⟩ := hkeep j nd hnd hl
    exact ⟨nd, nd', hnd, g1, g2, g5, g3, g4, g6, g7⟩

end Verif.Recovery

namespace Verif.Replace
open Verif.Fs Verif.Kernel Verif.Path Verif.Recovery
open Verif.Pipeline (file_of read_file tame_read)

/-- C103.  **A crash** while the file is being replaced, `b` being the metadata of the start of the session: after the next start the name leads to the
old file with the old content, and after a crash that follows the rename to the new file with the new content.  (The size too, unless the file was
emptied by an open with `O_TRUNC`, C26.  A crash within the rename is one of the two, C78.)  Partial: a crash during the recovery or the shutdown,
C28. -/
theorem replace_crash_partial {P : Plan} {i j : Nat} {x y : Conf} {ms : List Move} (h : Start P i j x) (hr : Runs P i j x ms y)
    (hd : y.done = false) {D : Nat → Prop} {b : Snap} (hs : Sess D b y.s) {n : Nat} (hi : IsFile y.s i n) :
    (∃ s1, reboot (diskOf b y.s.fs) = some s1 ∧ To s1 P.N i ∧ bytes s1 i = bytes x.s i ∧ (¬ D i → IsFile s1 i n)) ∧
    (y.left = [] → ∃ s1, reboot (diskOf b (next P y .swap).s.fs) = some s1 ∧ To s1 P.N j ∧ bytes s1 j = x.left ∧
      (∀ k, ¬ To s1 P.T k) ∧ (¬ D j → IsFile s1 j x.left.length)) := by
  obtain ⟨f, h0⟩ := h.ok
  rcases hr.stage (.inl ⟨h.live, h0⟩) with ⟨-, g⟩ | ⟨a, -⟩
  · obtain ⟨cg, hc, hp1, hp2, hp3, hp4⟩ := g.paths
    have gN : ∀ m ∈ P.N, Good m := by rw [← hp4]; exact hs.life.inv.gp hc _
    have gT : ∀ m ∈ P.T, Good m := by rw [← hp3]; exact hs.life.inv.gp hc _
    refine ⟨?_, ?_⟩
    · obtain ⟨s1, e, ht⟩ := crash_paths_partial hs
      obtain ⟨w, q⟩ := ht _ gN i
      obtain ⟨nd, nd', n1, n2, n3, -, -, -, n4, n5⟩ := q g.new
      obtain ⟨nd0, m1, m2, m3⟩ := hi
      rw [m1] at n1; cases n1
      refine ⟨s1, e, w.2 g.new, ?_, fun hD => ⟨nd', n2, n3.trans m2, (n4 hD).trans m3⟩⟩
      rw [← g.old]; simp only [bytes, n5 m2]
    · intro hl
      obtain ⟨ps, o, n, hT, hN⟩ := g.dir
      have hon : o ≠ n := by
        rintro rfl
        have h1 := g.tmp
        have h2 := g.new
        rw [hT] at h1; rw [hN] at h2
        exact g.ne (walk_fun g.reach.inv.fs.tree h2 h1)
      have h1 : Leads y.s cg P.tmp j := by unfold Leads; rw [hp3]; exact g.tmp
      have h2 : Leads y.s cg P.new i := by unfold Leads; rw [hp4]; exact g.new
      obtain ⟨s1, e, ht⟩ := crash_over_partial hs hc hp1 hp2 h1 h2 (hp3.trans hT) (hp4.trans hN) hon
      have hx : (next P y .swap).s = (step y.s P.c (.rename P.tmp P.new)).1 := by simp only [next, hd, hl, and_self, if_true]
      obtain ⟨-, sv, sn, -, so⟩ := g.swap hd hl
      rw [← hx] at e ht
      obtain ⟨w, q⟩ := ht _ gN j
      obtain ⟨nd, nd', n1, n2, n3, -, -, -, n4, n5⟩ := q sv.new
      obtain ⟨nd0, m1, m2, m3⟩ := g.file
      obtain ⟨nd1, k1, k2, -, k3⟩ := (so j).1 nd0 m1
      rw [n1] at k1; cases k1
      have hsum := g.sum
      rw [hl, List.append_nil] at hsum
      refine ⟨s1, e, w.2 sv.new, ?_, ?_, fun hD => ⟨nd', n2, n3.trans (k2.trans m2), ?_⟩⟩
      · rw [← sv.all]; simp only [bytes, n5 (k2.trans m2)]
      · intro k hk
        exact sn k ((ht _ gT k).1.1 hk)
      · rw [n4 hD, k3, m3, hsum]
  · rw [a] at hd; cases hd

/-- Readers of any file are always among the other calls allowed. -/
theorem reader_kept {P : Plan} {i j c fd k pos size n : Nat} {f : BitVec 32} {s : State} (hr : Reach s) (hne : c ≠ P.c)
    (ho : OpenOn s c fd k pos f) (hf : IsFile s k size) (hrd : f &&& 3#32 ≠ 1#32) (hp : pos ≤ size) (hn : n < 2147483648) :
    Kept P i j s (step s c (.read fd n)).1 := by
  obtain ⟨cg, hc, -⟩ := ho.2
  have e := read_file hr ho hf hrd hp hn
  rw [e]
  dsimp only
  have hfs := setFd_fs s c fd (some (.file k (pos + min n (size - pos)) f))
  have hcg : (s.setFd c fd (some (.file k (pos + min n (size - pos)) f))).cages P.c = s.cages P.c := by
    simp only [State.setFd, hc, State.setCage]
    exact upd_ne _ _ (Ne.symm hne)
  refine ⟨?_, ?_, ?_, ?_, ?_⟩
  · simp only [slot, hcg]
  · simp only [bytes, hfs]
  · simp only [bytes, hfs]
  · intro q; simp only [To, hfs]; exact ⟨id, id⟩
  · intro cg' hc'; exact ⟨cg', hcg.trans hc', rfl, rfl⟩

end Verif.Replace
