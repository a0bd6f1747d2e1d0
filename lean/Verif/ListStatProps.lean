import Verif.DirDevProps
import Verif.StatBufProps
import Verif.FsToolsCalls

/-!
# What a directory lists is what stat finds there: C98

No new model: reading a directory (`Reads`, C29) and `stat` (C86) on the kernel model.
-/

namespace Verif.ListStat
open Verif.Fs Verif.Kernel Verif.Path Verif.StatBuf

/-! ## Specification -/

/-- The path of the name `n` in the directory with path `q`, as a program writes it. -/
def under (q n : Str) : Str := q ++ [47] ++ n

/-- A name that can stand in a directory: a plain name, or one of the dots. -/
def Nameable (n : Name) : Prop := (n ≠ [] ∧ 47 ∉ n) ∧ (n ≠ [46] → n ≠ [46, 46] → Good n)

/-- The program has read the directory `i` from its start to its end: the last call returned 0, and the buffers were large enough for
each record.  `l` is what it found, call by call. -/
structure ReadAll (c fd i : Nat) (ents : List (Str × Nat)) (s : State) (l : List (Nat × Ret × List (Str × Nat))) : Prop where
  reads : ∃ f s', OpenOn s c fd i 0 f ∧ Reads c fd i ents f s l s'
  dir : DirWith s i ents
  names : Getdents.Sane ents
  room : ∀ x ∈ l, Getdents.clipped < x.1 ∧ ∀ e ∈ ents, Getdents.recLen e.1 ≤ x.1
  done : ∃ x ∈ l, x.2.1 = .ok 0

/-! ## Lemmas -/

theorem ReadAll.found {c fd i : Nat} {ents : List (Str × Nat)} {s : State} {l : List (Nat × Ret × List (Str × Nat))}
    (h : ReadAll c fd i ents s l) : Kernel.found l = ents := by
  obtain ⟨⟨f, s', h1, h2⟩, h3, h4, h5, h6⟩ := h
  exact directory_reads_all h4 h2 h1 h3 h5 h6

theorem walk_last {ino : Nat → Option Inode} {ns : List Name} {n : Name} {k : Nat} : ∀ {d : Nat}, Walk ino d (ns ++ [n]) k →
    ∃ e nd, Walk ino d ns e ∧ ino e = some nd ∧ nd.isDir ∧ (n, k) ∈ nd.ents := by
  induction ns with
  | nil =>
    intro d h
    cases h with
    | down a b c w => cases w; exact ⟨d, _, .here d, a, b, c⟩
  | cons m ns ih =>
    intro d h
    cases h with
    | down a b c w =>
      obtain ⟨e, nd, h1, h2⟩ := ih w
      exact ⟨e, nd, .down a b c h1, h2⟩

theorem under_path {s : State} (h : Reach s) {c : Nat} {cg : Cage} (hc : s.cages c = some cg) {q n : Str} (hq : q ≠ [])
    (hn : 47 ∉ n) : cg.path (under q n) = resolve (cg.path q) [n] := by
  obtain ⟨dir, hd, e⟩ := FsTools.path_resolve (h.inv.cage c cg hc).2.2
  have hrel : isRelative (under q n) = isRelative q := by
    unfold under isRelative
    cases q with
    | nil => exact absurd rfl hq
    | cons a as => simp
  rw [e, e, hrel]
  generalize (if isRelative q then dir else []) = D
  have : under q n = q ++ slash :: n := by simp [under, slash]
  rw [this, segs_append, segs_noslash n hn, resolve_append]

/-- The entries of a directory that a path leads to are what the paths below lead to. -/
theorem under_leads {s : State} (h : Reach s) {c : Nat} {cg : Cage} (hc : s.cages c = some cg) {q : Str} (hq : q ≠ []) {i : Nat}
    (hl : Leads s cg q i) {ents : List (Str × Nat)} (hd : DirWith s i ents) {n : Name} (hn : Nameable n) (k : Nat) :
    (n, k) ∈ ents ↔ Leads s cg (under q n) k := by
  obtain ⟨nd, h1, h2, h3⟩ := hd
  have hdir : nd.isDir = true := by simp [Inode.isDir, h2]
  have ht := h.inv.fs.tree
  have hnod := ht.nodup h1
  have hup := under_path h hc hq hn.1.2
  unfold Leads at hl ⊢
  rw [hup, ← h3]
  have h7 : i ≠ 7 := by
    rcases FsTools.snoc_cases (cg.path q) with e | ⟨ns, m, e⟩
    · rw [e] at hl; cases hl; decide
    · rw [e] at hl
      obtain ⟨d, pd, -, w2, -, w4⟩ := walk_last hl
      have hg : Good m := by
        have := h.inv.gp hc q
        exact this m (by rw [e]; simp)
      exact (ht.ent w2 w4 ⟨hg.2.2.1, hg.2.2.2⟩).2.2.1
  obtain ⟨d1, p, d2, d3⟩ := ht.dots h1 hdir h7
  by_cases e1 : n = dot
  · have : resolve (cg.path q) [n] = cg.path q := by subst e1; simp [resolve]
    rw [this, e1, ← entGet_iff hnod, d1]
    constructor
    · intro e; cases e; exact hl
    · intro w; rw [walk_fun ht hl w]
  by_cases e2 : n = dotdot
  · have hr : resolve (cg.path q) [n] = (cg.path q).dropLast := by subst e2; simp [resolve, dot, dotdot]
    rw [hr, e2, ← entGet_iff hnod, d2]
    rcases FsTools.snoc_cases (cg.path q) with e | ⟨ns, m, e⟩
    · rw [e] at hl ⊢
      cases hl
      rw [d3 rfl]
      constructor
      · intro e; cases e; exact .here _
      · intro w; cases w; rfl
    · rw [e] at hl
      obtain ⟨d, pd, w1, w2, w3, w4⟩ := walk_last hl
      have hg : Good m := by
        have := h.inv.gp hc q
        exact this m (by rw [e]; simp)
      obtain ⟨-, -, -, jd, j1, j2⟩ := ht.ent w2 w4 ⟨hg.2.2.1, hg.2.2.2⟩
      rw [h1] at j1; cases j1
      have := (j2 hdir).1
      rw [d2] at this; cases this
      rw [e, List.dropLast_concat]
      constructor
      · intro e; cases e; exact w1
      · intro w; rw [walk_fun ht w1 w]
  have hg : Good n := hn.2 e1 e2
  rw [resolve_names [n] _ (by simpa using hg)]
  constructor
  · intro hm; exact hl.snoc h1 hdir hm
  · intro w
    obtain ⟨e, nd', w1, w2, -, w4⟩ := walk_last w
    have := walk_fun ht hl w1; subst this
    rw [h1] at w2; cases w2; exact w4

/-! ## C98 -/

/-- C98.  A program has read a directory, whose names have less than 60000 bytes (C29), from start to end.  Then at that time, and at any time at which the directory's entries
are still the same, for any process and any path by which it reaches the directory: a name is among those found, with number
`k`, exactly if stat of the name under that path succeeds and stores the number `k`. -/
theorem listed_iff_stat_partial {c fd i : Nat} {ents : List (Str × Nat)} {s : State} {l : List (Nat × Ret × List (Str × Nat))}
    (hr : ReadAll c fd i ents s l) {t : State} (ht : Reach t) (hd : DirWith t i ents)
    {c' : Nat} {cg : Cage} (hc : t.cages c' = some cg) {q : Str} (hq : q ≠ []) (hl : Leads t cg q i)
    {n : Name} (hn : Nameable n) (k : Nat) (b : Buf) :
    (n, k) ∈ found l ↔ (stat t cg (under q n) b).2 = .ok 0 ∧ (stat t cg (under q n) b).1.ino = k := by
  rw [hr.found, under_leads ht hc hq hl hd hn k]
  constructor
  · intro hk
    obtain ⟨h1, nd, -, h2⟩ := (stat_says ht hc (under q n) b).1 k hk
    exact ⟨h1, h2.ino⟩
  · rintro ⟨h1, h2⟩
    by_cases hx : ∃ j, Leads t cg (under q n) j
    · obtain ⟨j, hj⟩ := hx
      obtain ⟨-, nd, -, h3⟩ := (stat_says ht hc (under q n) b).1 j hj
      rw [h3.ino] at h2; subst h2; exact hj
    · rw [(stat_says ht hc (under q n) b).2 (fun j hj => hx ⟨j, hj⟩)] at h1; cases h1

/-- C98.  The same with open: a descriptor that the program opens on a name found is on the object with the number found. -/
theorem listed_is_open_partial {c fd i : Nat} {ents : List (Str × Nat)} {s : State} {l : List (Nat × Ret × List (Str × Nat))}
    (hr : ReadAll c fd i ents s l) {t : State} (ht : Reach t) (hd : DirWith t i ents)
    {c' : Nat} {cg : Cage} (hc : t.cages c' = some cg) {q : Str} (hq : q ≠ []) (hl : Leads t cg q i)
    {n : Name} (hn : Nameable n) {k : Nat} (hk : (n, k) ∈ found l) {c2 fd2 j pos : Nat} {f : BitVec 32} {cg2 : Cage}
    (hc2 : t.cages c2 = some cg2) (ho : OpenOn t c2 fd2 j pos f) (b : Buf) :
    fstat t cg2 fd2 b = stat t cg (under q n) b ↔ j = k := by
  rw [hr.found, under_leads ht hc hq hl hd hn k] at hk
  constructor
  · intro e
    obtain ⟨-, nd, -, h1⟩ := fstat_says ht hc2 ho b
    obtain ⟨-, nd', -, h2⟩ := (stat_says ht hc (under q n) b).1 k hk
    rw [← h1.ino, e, h2.ino]
  · rintro rfl
    exact fstat_is_stat ht hc2 ho hc hk b

/-- C98.  No name is found twice, and each name found can be used in a path: it is not empty and has no slash in it.  In a directory
that has a path both dots are found. -/
theorem names_usable_partial {c fd i : Nat} {ents : List (Str × Nat)} {s : State} {l : List (Nat × Ret × List (Str × Nat))}
    (h : Reach s) (hr : ReadAll c fd i ents s l) :
    ((found l).map (·.1)).Nodup ∧ (∀ e ∈ found l, Nameable e.1) ∧
    ∀ {c' : Nat} {cg : Cage} {q : Str}, s.cages c' = some cg → Leads s cg q i → q ≠ [] →
      (∃ k, ([46], k) ∈ found l) ∧ (∃ k, ([46, 46], k) ∈ found l) := by
  rw [hr.found]
  obtain ⟨nd, h1, h2, h3⟩ := hr.dir
  have ht := h.inv.fs.tree
  have hdir : nd.isDir = true := by simp [Inode.isDir, h2]
  refine ⟨h3 ▸ ht.nodup h1, ?_, ?_⟩
  · rintro ⟨n, k⟩ he
    rw [← h3] at he
    by_cases e1 : n = dot
    · subst e1; exact (⟨⟨by decide, by decide⟩, fun h => absurd rfl h⟩ : Nameable dot)
    by_cases e2 : n = dotdot
    · subst e2; exact (⟨⟨by decide, by decide⟩, fun _ h => absurd rfl h⟩ : Nameable dotdot)
    have hg := (ht.ent h1 he ⟨e1, e2⟩).1
    exact ⟨⟨hg.1, hg.2.1⟩, fun _ _ => hg⟩
  · intro c' cg q hc hl hq
    have hdw : DirWith s i ents := hr.dir
    have d1 : Nameable ([46] : Name) := ⟨⟨by decide, by decide⟩, fun h => absurd rfl h⟩
    have d2 : Nameable ([46, 46] : Name) := ⟨⟨by decide, by decide⟩, fun _ h => absurd rfl h⟩
    have h7 : i ≠ 7 := by
      unfold Leads at hl
      rcases FsTools.snoc_cases (cg.path q) with e | ⟨ns, m, e⟩
      · rw [e] at hl; cases hl; decide
      · rw [e] at hl
        obtain ⟨d, pd, -, w2, -, w4⟩ := walk_last hl
        have hg : Good m := by
          have := h.inv.gp hc q
          exact this m (by rw [e]; simp)
        exact (ht.ent w2 w4 ⟨hg.2.2.1, hg.2.2.2⟩).2.2.1
    obtain ⟨a, p, b, -⟩ := ht.dots h1 hdir h7
    rw [← h3]
    exact ⟨⟨i, entGet_mem a⟩, ⟨p, entGet_mem b⟩⟩

/-! ## The hypotheses are met -/

/-- `/d` with the entries e, g, f (g and f are one file) read in three calls. -/
theorem tree2_read : ReadAll 0 5 9 entsD tree2 [(80, .ok 72, [([101], 11), ([103], 10), ([102], 10)]),
    (80, .ok 48, [([46], 9), ([46, 46], 1)]), (30, .ok 0, [])] := by
  refine ⟨⟨0#32, (step (step (step tree2 0 (.getdents 5 80)).1 0 (.getdents 5 80)).1 0 (.getdents 5 30)).1, tree2_open.1, ?_⟩,
    tree2_dir.1, tree2_dir.2, by decide, by decide⟩
  have r1 : (step tree2 0 (.getdents 5 80)).2.ret = .ok 72 := by decide +kernel
  have r2 : (step (step tree2 0 (.getdents 5 80)).1 0 (.getdents 5 80)).2.ret = .ok 48 := by decide +kernel
  have r3 : (step (step (step tree2 0 (.getdents 5 80)).1 0 (.getdents 5 80)).1 0 (.getdents 5 30)).2.ret = .ok 0 := by
    decide +kernel
  rw [← r1, ← r2, ← r3]
  exact .call (by decide +kernel) (.call (by decide +kernel) (.call (by decide +kernel) (.done _)))

theorem tree2_reach : Reach tree2 := by
  have : Reach (run init treeOps) := Reach.init.run _ (by decide +kernel)
  exact this.run _ (by decide +kernel)

def cage2 : Cage := match tree2.cages 0 with | some cg => cg | none => cage0

theorem tree2_cage : tree2.cages 0 = some cage2 := rfl

/-- stat of `/d/g` stores 10, of `/d/..` 1, and `/d/x` is not there. -/
example : (stat tree2 cage2 (under pD [103]) junk).1.ino = 10 ∧ (stat tree2 cage2 (under pD [46, 46]) junk).1.ino = 1 ∧
    (stat tree2 cage2 (under pD [120]) junk).2 = .err .ENOENT := by decide +kernel

example : Leads tree2 cage2 pD 9 := by
  have h0 : (stat tree2 cage2 pD junk).2 = .ok 0 ∧ (stat tree2 cage2 pD junk).1.ino = 9 := by decide +kernel
  by_cases hx : ∃ j, Leads tree2 cage2 pD j
  · obtain ⟨j, hj⟩ := hx
    obtain ⟨-, nd, -, h3⟩ := (stat_says tree2_reach tree2_cage pD junk).1 j hj
    rw [h3.ino] at h0
    exact h0.2 ▸ hj
  · rw [(stat_says tree2_reach tree2_cage pD junk).2 (fun j hj => hx ⟨j, hj⟩)] at h0; cases h0.1

example : Nameable [103] ∧ Nameable [46, 46] ∧ Nameable [120] := by
  refine ⟨⟨by decide, fun _ _ => by decide⟩, ⟨by decide, fun _ h => absurd rfl h⟩, ⟨by decide, fun _ _ => by decide⟩⟩

/-! ## Where listing and stat disagree -/

/-- `/d` is made, opened, and removed. -/
def gone : State := run init [(0, .mkdir pD 0o777#32), (0, .openP pD 0#32 0#32), (0, .rmdir pD)]

/-- A directory that was removed while it is open still lists `.` and `..` (a Linux system lists nothing), with the number of
a directory that no path leads to. -/
theorem removed_lists_violated : Getdents.parse 100 (step gone 0 (.getdents 3 100)).2.data = some [([46], 9), ([46, 46], 1)] ∧
    (step gone 0 (.stat pD)).2.ret = .err .ENOENT := by
  constructor <;> decide +kernel

end Verif.ListStat
