import Verif.FsTree

/-!
# The file system invariant and its preservation by every file system operation

`cnt i` is the number of descriptors, over all cages, that designate inode `i`.
-/

namespace Verif.Fs
open Verif.Path

/-- What holds at one inode number: data length, `FILEOBJECTTABLE`, host file, reference count. -/
def LocalAt (o : Option Inode) (fo : Option Nat) (dk : Option (List UInt8)) (c : Nat) : Prop :=
  match o with
  | none => fo = none ∧ dk = none ∧ c = 0
  | some nd =>
    match nd.kind with
    | .file => (∃ d, dk = some d ∧ d.length = nd.size) ∧ fo = (if nd.ref = 0 then none else some nd.size)
        ∧ nd.ref = c ∧ (0 < nd.link ∨ 0 < nd.ref)
    | .dir => fo = none ∧ dk = none ∧ c ≤ nd.ref
    | .chr _ => fo = none ∧ dk = none ∧ nd.ref = c ∧ (0 < nd.link ∨ 0 < nd.ref)
    | .sock => fo = none ∧ dk = none ∧ c = 0

/-- The invariant of the file system. -/
structure FsInv (fs : Fs) (cnt : Nat → Nat) : Prop where
  tree : Tree fs.inodes fs.next
  loc : ∀ i, LocalAt (fs.inodes i) (fs.fobj i) (fs.disk i) (cnt i)
  c7 : cnt 7 = 0

theorem walkFrom_congr {a b : Nat → Option Inode}
    (h : ∀ i, (a i).map (fun nd => (nd.isDir, nd.ents)) = (b i).map (fun nd => (nd.isDir, nd.ents)))
    (p : List Name) (i par : Option Nat) : walkFrom a p i par = walkFrom b p i par := by
  induction p generalizing i par with
  | nil => rfl
  | cons n ns ih =>
    cases i with
    | none => rfl
    | some i =>
      have := h i
      simp only [walkFrom]
      cases ha : a i with
      | none =>
        rw [ha] at this
        cases hb : b i with
        | none => rfl
        | some y => rw [hb] at this; simp at this
      | some x =>
        rw [ha] at this
        cases hb : b i with
        | none => rw [hb] at this; simp at this
        | some y =>
          rw [hb] at this
          simp only [Option.map_some, Option.some.injEq, Prod.mk.injEq] at this
          simp only [this.1, this.2, ih]

theorem walk_set {fs : Fs} {i : Nat} {nd nd' : Inode} (hi : fs.inodes i = some nd)
    (hk : nd'.kind = nd.kind) (he : nd'.ents = nd.ents) (p : List Name) :
    (fs.set i (some nd')).walk p = fs.walk p := by
  have h : ∀ j, ((fs.set i (some nd')).inodes j).map (fun nd => (nd.isDir, nd.ents))
      = (fs.inodes j).map (fun nd => (nd.isDir, nd.ents)) := by
    intro j
    simp only [Fs.set, upd_apply]
    split
    · rename_i e; subst e; simp only [hi, Option.map_some, Inode.isDir, hk, he]
    · rfl
  simp only [Fs.walk]
  have h1 := h rootIno
  cases ha : (fs.set i (some nd')).inodes rootIno with
  | none =>
    rw [ha] at h1
    cases hb : fs.inodes rootIno with
    | none => rfl
    | some y => rw [hb] at h1; simp at h1
  | some x =>
    rw [ha] at h1
    cases hb : fs.inodes rootIno with
    | none => rw [hb] at h1; simp at h1
    | some y => exact walkFrom_congr h _ _ _

/-! ## Walk results for good paths -/

/-- The three possible answers of a path lookup. -/
inductive Look (fs : Fs) (p : List Name) : Option Nat × Option Nat → Prop
  | root : p = [] → Look fs p (some rootIno, none)
  | found {i par ps n pd nd} : p = ps ++ [n] → Walk fs.inodes rootIno ps par → Walk fs.inodes rootIno p i →
      fs.inodes par = some pd → pd.isDir → Live fs.inodes par → entGet pd.ents n = some i →
      Good n → fs.inodes i = some nd → i ≠ rootIno → i ≠ 7 → i ≠ par → Look fs p (some i, some par)
  | free {par ps n pd} : p = ps ++ [n] → Walk fs.inodes rootIno ps par →
      fs.inodes par = some pd → pd.isDir → Live fs.inodes par → entGet pd.ents n = none →
      Good n → (∀ i, ¬ Walk fs.inodes rootIno p i) → Look fs p (none, some par)
  | gone : p ≠ [] → (∀ ps n par pd, p = ps ++ [n] → Walk fs.inodes rootIno ps par →
      fs.inodes par = some pd → pd.isDir = false) → (∀ i, ¬ Walk fs.inodes rootIno p i) →
      Look fs p (none, none)

theorem look {fs : Fs} (h : Tree fs.inodes fs.next) (p : List Name) (hp : ∀ n ∈ p, Good n) :
    ∃ r, fs.walk p = some r ∧ Look fs p r := by
  by_cases hne : p = []
  · subst hne; exact ⟨_, walk_nil h, .root rfl⟩
  · obtain ⟨⟨a, b⟩, hr, hf, hpa, ho⟩ := walk_spec h p (fun n hn => Good.proper (hp n hn)) hne
    refine ⟨(a, b), hr, ?_⟩
    have hno : a = none → ∀ i, ¬ Walk fs.inodes rootIno p i := by
      rintro rfl i hw
      rcases List.eq_nil_or_concat p with e | ⟨ps, n, e⟩
      · exact hne e
      · rw [List.concat_eq_append] at e
        subst e
        obtain ⟨e, nd, w, g1, g2, g3⟩ := hw.split
        cases b with
        | none => have := ho rfl _ _ _ _ rfl w g1; rw [g2] at this; cases this
        | some par =>
          obtain ⟨ps', n', pd, heq, w', g1', g2', -, g4⟩ := hpa rfl
          have hl := List.append_inj' heq rfl
          simp only [List.cons.injEq, and_true] at hl
          obtain ⟨rfl, rfl⟩ := hl
          have := walk_fun h w w'; subst this
          rw [g1] at g1'; cases g1'
          exact entGet_none.1 g4.symm _ g3
    cases b with
    | none =>
      cases a with
      | some i => exact absurd rfl (hf rfl).2.2
      | none => exact .gone hne (ho rfl) (hno rfl)
    | some par =>
      obtain ⟨ps, n, pd, heq, w, g1, g2, g3, g4⟩ := hpa rfl
      have hg : Good n := hp n (by simp [heq])
      cases a with
      | none => exact .free heq w g1 g2 g3 g4.symm hg (hno rfl)
      | some i =>
        obtain ⟨w', ⟨nd, hnd⟩, -⟩ := hf rfl
        obtain ⟨-, e2, e3, jd, e4, e5⟩ := h.ent g1 (entGet_mem g4.symm) (Good.proper hg)
        refine .found heq w w' g1 g2 g3 g4.symm hg hnd e2 e3 ?_
        rintro rfl
        rw [g1] at e4; cases e4
        have := (e5 g2).2; omega

theorem getLast_snoc {α} (ps : List α) (n : α) : (ps ++ [n]).getLast? = some n := by simp

theorem isDir_iff {nd : Inode} : nd.isDir = true ↔ nd.kind = .dir := by
  unfold Inode.isDir; split <;> simp_all
theorem isFile_iff {nd : Inode} : nd.isFile = true ↔ nd.kind = .file := by
  unfold Inode.isFile; split <;> simp_all
theorem isSock_iff {nd : Inode} : nd.isSock = true ↔ nd.kind = .sock := by
  unfold Inode.isSock; split <;> simp_all

theorem Live.isDirAt {fs : Fs} {cnt} (h : FsInv fs cnt) {i : Nat} (hn : fs.inodes i = none) :
    fs.fobj i = none ∧ fs.disk i = none ∧ cnt i = 0 := by
  have := h.loc i; rw [hn] at this; exact this

/-! ## Updates of one inode that keep its shape -/

/-- Change mode, size or reference count of one inode, its data and the descriptor count. -/
theorem FsInv.attr {fs fs' : Fs} {cnt cnt' : Nat → Nat} (h : FsInv fs cnt) {i : Nat} {nd nd' : Inode}
    (hi : fs.inodes i = some nd) (hs : shape nd' = shape nd)
    (e1 : fs'.inodes = upd fs.inodes i (some nd')) (e2 : fs'.next = fs.next)
    (e3 : ∀ j, j ≠ i → fs'.fobj j = fs.fobj j) (e4 : ∀ j, j ≠ i → fs'.disk j = fs.disk j)
    (e5 : ∀ j, j ≠ i → cnt' j = cnt j) (h7 : cnt' 7 = 0)
    (hl : LocalAt (some nd') (fs'.fobj i) (fs'.disk i) (cnt' i)) : FsInv fs' cnt' := by
  refine ⟨?_, ?_, h7⟩
  · rw [e1, e2]; exact h.tree.congr (SameShape.upd hi hs)
  · intro j
    by_cases e : j = i
    · subst e; rw [e1, upd_same]; exact hl
    · rw [e1, upd_ne _ _ e, e3 j e, e4 j e, e5 j e]; exact h.loc j

/-- Nothing but the log or the socket name table changes. -/
theorem FsInv.log {fs fs' : Fs} {cnt : Nat → Nat} (h : FsInv fs cnt) (e1 : fs'.inodes = fs.inodes)
    (e2 : fs'.next = fs.next) (e3 : fs'.fobj = fs.fobj) (e4 : fs'.disk = fs.disk) : FsInv fs' cnt := by
  refine ⟨?_, ?_, h.c7⟩
  · rw [e1, e2]; exact h.tree
  · intro j; rw [e1, e3, e4]; exact h.loc j

/-! ## Operations -/

theorem FsInv.chmodIno {fs : Fs} {cnt} (h : FsInv fs cnt) (i : Nat) (mode : BitVec 32) :
    FsInv (fs.chmodIno i mode).1 cnt := by
  simp only [Fs.chmodIno]
  split
  · split
    · exact h
    · rename_i nd hi
      have hl := h.loc i
      rw [hi] at hl
      have key : FsInv (fs.set i (some { nd with mode := (nd.mode &&& ~~~sIRWXA) ||| mode })) cnt :=
        h.attr (nd' := { nd with mode := (nd.mode &&& ~~~sIRWXA) ||| mode }) hi rfl rfl rfl
          (fun _ _ => rfl) (fun _ _ => rfl) (fun _ _ => rfl) h.c7 (by exact hl)
      simp only
      split
      · exact key
      · exact key.log rfl rfl rfl rfl
  · exact h

theorem FsInv.chmod {fs : Fs} {cnt} (h : FsInv fs cnt) (p : List Name) (mode : BitVec 32) :
    FsInv (fs.chmod p mode).1 cnt := by
  simp only [Fs.chmod]
  split
  · exact h
  · exact h
  · exact h.chmodIno _ _

theorem FsInv.incRef {fs fs' : Fs} {cnt} (h : FsInv fs cnt) {i : Nat} (hc : 0 < cnt i)
    (he : fs.incRef i = some fs') : FsInv fs' (upd cnt i (cnt i + 1)) := by
  simp only [Fs.incRef] at he
  have hl := h.loc i
  split at he
  · cases he
  · rename_i nd hi
    cases he
    rw [hi] at hl
    have h7 : i ≠ 7 := by rintro rfl; have := h.c7; omega
    refine h.attr hi (by rfl) rfl rfl (fun _ _ => rfl) (fun _ _ => rfl)
      (fun j e => by simp [e]) (by simp [h.c7, h7.symm]) ?_
    simp only [LocalAt, Fs.set, upd_same] at hl ⊢
    split at hl <;> simp_all <;> omega

theorem FsInv.held {fs : Fs} {cnt} (h : FsInv fs cnt) {i : Nat} (hc : 0 < cnt i) :
    ∃ nd, fs.inodes i = some nd ∧ nd.kind ≠ .sock ∧ i ≠ 7 := by
  have hl := h.loc i
  have h7 : i ≠ 7 := by rintro rfl; have := h.c7; omega
  cases hi : fs.inodes i with
  | none => rw [hi] at hl; have := hl.2.2; omega
  | some nd =>
    rw [hi] at hl
    refine ⟨nd, rfl, ?_, h7⟩
    intro e
    simp only [LocalAt, e] at hl; omega

theorem FsInv.incRef_some {fs : Fs} {cnt} (h : FsInv fs cnt) {i : Nat} (hc : 0 < cnt i) :
    ∃ fs', fs.incRef i = some fs' := by
  obtain ⟨nd, hi, -⟩ := h.held hc
  exact ⟨_, by simp only [Fs.incRef, hi]; rfl⟩

/-- Take a reference of a directory that no descriptor stands for (fork, boot). -/
theorem FsInv.dirRef {fs : Fs} {cnt} (h : FsInv fs cnt) {i : Nat} {nd : Inode}
    (hi : fs.inodes i = some nd) (hd : nd.isDir) :
    FsInv (fs.set i (some { nd with ref := nd.ref + 1 })) cnt := by
  have hl := h.loc i
  rw [hi] at hl
  refine h.attr hi (by rfl) rfl rfl (fun _ _ => rfl) (fun _ _ => rfl) (fun _ _ => rfl) h.c7 ?_
  simp only [LocalAt, isDir_iff.1 hd, Fs.set] at hl ⊢
  exact ⟨hl.1, hl.2.1, by omega⟩

theorem FsInv.closeIno {fs : Fs} {cnt} (h : FsInv fs cnt) {i : Nat} (hc : 0 < cnt i) :
    FsInv (fs.closeIno i).1 (upd cnt i (cnt i - 1)) ∧ (fs.closeIno i).2 = .ok 0 := by
  obtain ⟨nd, hi, hns, h7⟩ := h.held hc
  have hl := h.loc i
  rw [hi] at hl
  have hcnt7 : upd cnt i (cnt i - 1) 7 = 0 := by simp [h.c7, h7.symm]
  have hcne : ∀ j, j ≠ i → upd cnt i (cnt i - 1) j = cnt j := fun j e => by simp [e]
  simp only [Fs.closeIno, hi]
  cases hk : nd.kind with
  | sock => exact absurd hk hns
  | file =>
    simp only [LocalAt, hk] at hl
    obtain ⟨⟨d, hd1, hd2⟩, hfo, href, hal⟩ := hl
    rw [if_neg (by omega)] at hfo
    simp only [hfo, hd1]
    by_cases hz : nd.ref - 1 = 0
    · simp only [hz, if_true]
      by_cases hlz : nd.link = 0
      · simp only [hlz, if_true]
        refine ⟨⟨?_, ?_, hcnt7⟩, by simp⟩
        · have hdir : nd.isDir = false := by simp [Inode.isDir, hk]
          have := h.tree.remove hi (by
              rintro rfl; obtain ⟨x, e1, e2⟩ := h.tree.root; rw [hi] at e1; cases e1
              rw [hdir] at e2; cases e2) (by rw [← h.tree.flink hi hdir]; exact hlz)
            (by rw [h.tree.leaf hi hdir]; simp)
          simpa only [Fs.logIno, Fs.rmHost, Fs.set, upd_upd] using this
        · intro j
          by_cases e : j = i
          · subst e; simp [Fs.logIno, Fs.rmHost, Fs.set, LocalAt]; omega
          · simp only [Fs.logIno, Fs.rmHost, Fs.set, upd_ne _ _ e]; exact h.loc j
      · simp only [hlz, if_false]
        refine ⟨h.attr (nd' := { nd with ref := 0 }) hi (by rfl) (by simp only [Fs.set, hk])
          rfl (fun j e => by simp [Fs.set, e])
          (fun _ _ => rfl) hcne hcnt7 ?_, by simp⟩
        simp only [LocalAt, hk, Fs.set, upd_same]
        exact ⟨⟨d, hd1, hd2⟩, rfl, by omega, by omega⟩
    · simp only [hz, if_false]
      refine ⟨h.attr (nd' := { nd with ref := nd.ref - 1 }) hi (by rfl) (by simp only [Fs.set, hk])
        rfl (fun _ _ => rfl) (fun _ _ => rfl) hcne hcnt7 ?_, by simp⟩
      simp only [LocalAt, hk, Fs.set, upd_same, hfo, hz, if_false]
      exact ⟨⟨d, hd1, hd2⟩, trivial, by omega, by omega⟩
  | dir =>
    simp only [LocalAt, hk] at hl
    obtain ⟨hfo, hdk, href⟩ := hl
    have hdir : nd.isDir = true := isDir_iff.2 hk
    have hlk := h.tree.dlink hi hdir h7
    have hdots := h.tree.dots hi hdir h7
    have : 2 ≤ nd.ents.length := by
      obtain ⟨g1, p, g2, -⟩ := hdots
      have m1 := entGet_mem g1
      have m2 := entGet_mem g2
      cases he : nd.ents with
      | nil => rw [he] at m1; simp at m1
      | cons a as =>
        cases as with
        | nil =>
          rw [he] at m1 m2
          simp only [List.mem_singleton] at m1 m2
          rw [← m2] at m1; simp [dot, dotdot] at m1
        | cons b bs => simp
    simp only [hfo, Option.isSome_none, Bool.false_eq_true, if_false]
    rw [if_neg (by omega)]
    refine ⟨h.attr (nd' := { nd with ref := nd.ref - 1 }) hi (by rfl) (by simp only [Fs.set, hk])
      rfl (fun _ _ => rfl) (fun _ _ => rfl) hcne hcnt7 ?_, by simp⟩
    simp only [LocalAt, hk, Fs.set, upd_same]
    exact ⟨hfo, hdk, by omega⟩
  | chr dev =>
    simp only [LocalAt, hk] at hl
    obtain ⟨hfo, hdk, href, hal⟩ := hl
    simp only [hfo, Option.isSome_none, Bool.false_eq_true, if_false]
    by_cases hz : nd.link = 0 ∧ nd.ref - 1 = 0
    · simp only [hz, and_self, if_true]
      refine ⟨⟨?_, ?_, hcnt7⟩, by simp⟩
      · have hdir : nd.isDir = false := by simp [Inode.isDir, hk]
        have := h.tree.remove hi (by
            rintro rfl; obtain ⟨x, e1, e2⟩ := h.tree.root; rw [hi] at e1; cases e1
            rw [hdir] at e2; cases e2) (by rw [← h.tree.flink hi hdir]; exact hz.1)
          (by rw [h.tree.leaf hi hdir]; simp)
        simpa only [Fs.logIno, Fs.set, upd_upd] using this
      · intro j
        by_cases e : j = i
        · subst e; simp [Fs.logIno, Fs.set, LocalAt, hfo, hdk]; omega
        · simp only [Fs.logIno, Fs.set, upd_ne _ _ e]; exact h.loc j
    · rw [if_neg hz]
      refine ⟨h.attr (nd' := { nd with ref := nd.ref - 1 }) hi (by rfl) (by simp only [Fs.logIno, Fs.set, hk])
        rfl (fun _ _ => rfl) (fun _ _ => rfl) hcne hcnt7 ?_, by simp⟩
      simp only [LocalAt, hk, Fs.set, Fs.logIno, upd_same]
      exact ⟨hfo, hdk, by omega, by omega⟩

end Verif.Fs
