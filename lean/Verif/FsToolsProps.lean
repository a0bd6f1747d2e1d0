import Verif.FsToolsSpec
import Verif.NsAnswers

/-!
# Deleting a tree, clearing `/tmp` (property C66)

`Verif.FsTools` models `lind_deltree` and `cleartmp` as programs of system calls of one cage.  The theorems say what is left
afterwards in terms of paths (`Walk`), inodes, bytes and descriptors.
-/

namespace Verif.FsTools

open Verif.Path Verif.Fs Verif.Kernel

/-! ## Specification -/

/-- The names in `q` are ordinary, that is neither `.` nor `..`. -/
def Plainly (q : List Name) : Prop := ∀ m ∈ q, isDots m = false

/-- Between `s` and `s'` exactly the paths that satisfy `gone` disappeared.  Of what has a path left, or is open, directories
other than the one at `par` kept everything, and other objects everything but the number of their names, including their bytes. -/
structure OnlyGone (gone : List Name → Prop) (par : List Name) (s s' : State) : Prop where
  paths : ∀ q k, Plainly q → (Walk s'.fs.inodes rootIno q k ↔ Walk s.fs.inodes rootIno q k ∧ ¬ gone q)
  dirs : ∀ q k nd, Plainly q → ¬ gone q → q ≠ par → Walk s.fs.inodes rootIno q k → s.fs.inodes k = some nd → nd.kind = .dir →
    s'.fs.inodes k = some nd
  files : ∀ k nd, s.fs.inodes k = some nd → nd.kind ≠ .dir →
    (0 < nd.ref ∨ ∃ q, Plainly q ∧ ¬ gone q ∧ Walk s.fs.inodes rootIno q k) →
    ∃ l, s'.fs.inodes k = some { nd with link := l } ∧ bytes s' k = bytes s k

theorem plainly_iff (q : List Name) : Plainly q ↔ ∀ m ∈ q, Proper m :=
  ⟨fun h m hm => (isDots_iff m).1 (h m hm), fun h m hm => (isDots_iff m).2 (h m hm)⟩

theorem Cut.onlyGone {A : List Name → Prop} {P : List Name} {s s' : State} (h : Cut A (fun q => q = P) s s') : OnlyGone A P s s' where
  paths q k gq := h.paths q k ((plainly_iff q).1 gq)
  dirs q k nd gq hA hB w hk hd := h.dirs q k nd ((plainly_iff q).1 gq) hA hB w hk (isDir_iff.2 hd)
  files k nd hk hd hx := by
    have hd' : nd.isDir = false := by
      cases hb : nd.isDir
      · rfl
      · exact absurd (isDir_iff.1 hb) hd
    obtain ⟨l, h1, h2⟩ := h.files k nd hk hd' (hx.imp id (fun ⟨q, a, b, c⟩ => ⟨q, (plainly_iff q).1 a, b, c⟩))
    exact ⟨l, h1, by simp only [bytes, h2]⟩

/-- The tree at `P` is one the tools can delete with `h` descriptors: the type bits of every mode in it tell whether the object is a
directory; every directory's names are C strings and its records fit in 65536 bytes; no directory is `h` or more levels below `P`. -/
structure Deletable (s : State) (P : List Name) (h : Nat) : Prop where
  kind : ∀ q k nd, Plainly q → P <+: q → Walk s.fs.inodes rootIno q k → s.fs.inodes k = some nd →
    (nd.mode &&& 0o170000#32 = 0o40000#32 ↔ nd.kind = .dir)
  dirs : ∀ q k nd, Plainly q → P <+: q → Walk s.fs.inodes rootIno q k → s.fs.inodes k = some nd → nd.kind = .dir →
    Getdents.Sane nd.ents ∧ (nd.ents.map (fun e => Getdents.recLen e.1)).sum ≤ 65536 ∧ q.length < P.length + h

theorem Deletable.plain {s : State} {P : List Name} {h : Nat} (d : Deletable s P h) : Plain s P h where
  kind q k nd gq hp w hk := by
    have := d.kind q k nd ((plainly_iff q).2 gq) hp w hk
    simp only [modeIsDir, sFileType, sIFDIR]
    cases hb : nd.isDir with
    | true => rw [this.2 (isDir_iff.1 hb)]; rfl
    | false =>
      simp only [beq_eq_false_iff_ne, ne_eq]
      intro e
      have := isDir_iff.2 (this.1 e)
      rw [hb] at this; cases this
  dirs q k nd gq hp w hk hd := d.dirs q k nd ((plainly_iff q).2 gq) hp w hk (isDir_iff.1 hd)

/-! ## Theorems -/

/-- C66.  Deleting a directory tree: it returns, nothing at or below the path is left, every other path leads where it led, every
other directory is as it was, the parent lost one entry, every other file kept its bytes and attributes, files that were open stay
readable, and no descriptor of any cage changed.  Partial: the parent must be writable, the tree `Deletable` (see `big_dir_violated`,
`odd_mode_violated`) and the cage must have as many free descriptors as the tree has levels (see `no_descriptor_violated`). -/
theorem deltree_exact_partial {s : State} (hR : Reach s) {c : Nat} {cg : Cage} (hc : s.cages c = some cg) {p : Str} (hp : p ≠ [])
    {ps : List Name} {n : Name} {i d h : Nat} {pd : Inode} (hP : cg.path p = ps ++ [n]) (hi : Leads s cg p i) (hd : IsDir s i)
    (wd : Walk s.fs.inodes rootIno ps d) (hpd : s.fs.inodes d = some pd) (hw : pd.mode &&& 0o222#32 ≠ 0#32)
    (hdel : Deletable s (ps ++ [n]) h) (hfree : h ≤ free cg.fds) {k : Nat} (hk : h + 2 ≤ k) :
    ∃ s', deltree c k s p = .done s' ∧ Reach s' ∧ s'.cages = s.cages ∧ OnlyGone (fun q => ps ++ [n] <+: q) ps s s' ∧
      (∀ j, ¬ Leads s' cg p j) ∧
      s'.fs.inodes d = some { pd with ents := entDel pd.ents n, link := pd.link - 1 } := by
  obtain ⟨nd, hnd, hk'⟩ := hd
  obtain ⟨s', h1, h2, h3, h4, h5⟩ := deltree_spec c h k hk s cg p i d nd pd ps n hR hc hp hi hnd (isDir_iff.2 hk') hP wd hpd hw
    hdel.plain hfree
  refine ⟨s', h1, h3, h2, h4.onlyGone, ?_, h5⟩
  intro j hj
  unfold Leads at hj
  rw [hP] at hj
  exact ((h4.paths _ j (fun m hm => Good.proper (hR.inv.gp hc p m (by rw [hP]; exact hm)))).1 hj).2 (List.prefix_refl _)

/-- C66.  On anything but a directory, deleting the tree is `unlink`; on a path that leads nowhere, nothing happens. -/
theorem deltree_leaf {s : State} (hR : Reach s) {c : Nat} {cg : Cage} (hc : s.cages c = some cg) {p : Str} (k : Nat) :
    (∀ i nd, Leads s cg p i → s.fs.inodes i = some nd → nd.mode &&& 0o170000#32 ≠ 0o40000#32 →
      deltree c (k + 1) s p = call s c (.unlink p)) ∧
    ((∀ i, ¬ Leads s cg p i) → deltree c (k + 1) s p = .done s) := by
  constructor
  · intro i nd hi hnd hm
    obtain ⟨par, hr, -⟩ := hR.inv.walk_found hc hi
    have hstat : (step s c (.stat p)).2 = { ret := .ok 0, stat := some (statOf i nd) } := by
      simp only [step, hc, Fs.stat, hr, hnd]
    have hf : modeIsDir (statOf i nd).mode = false := by
      show (nd.mode &&& sFileType == sIFDIR) = false
      exact beq_eq_false_iff_ne.2 hm
    rw [deltree_succ]
    simp only [hstat, hf, Bool.false_eq_true, if_false]
  · intro hno
    rw [deltree_succ, ((lookup_exact hR hc p).2.1 hno)]

/-- C66, C53.  Clearing `/tmp` when it is a writable directory: it is empty afterwards with the mode it had, everything outside is as
it was, no descriptor changed.  Partial: as `deltree_exact_partial`, for each entry of `/tmp`. -/
theorem cleartmp_empties_partial {s : State} (hR : Reach s) {cg : Cage} (hc : s.cages 0 = some cg) {i h : Nat} {nd : Inode}
    (hi : Leads s cg tmp i) (hnd : s.fs.inodes i = some nd) (hd : nd.kind = .dir) (hw : nd.mode &&& 0o222#32 ≠ 0#32)
    (hs : Getdents.Sane nd.ents) (hsum : (nd.ents.map (fun e => Getdents.recLen e.1)).sum ≤ 65536)
    (hdel : ∀ n, Deletable s [[116, 109, 112], n] h) (hfree : h + 1 ≤ free cg.fds) (init : Bool) {k : Nat} (hk : h + 2 ≤ k) :
    ∃ s' nd', cleartmp init k s = .done s' ∧ Reach s' ∧ s'.cages = s.cages ∧
      OnlyGone (fun q => [[116, 109, 112]] <+: q ∧ q ≠ [[116, 109, 112]]) [[116, 109, 112]] s s' ∧ Leads s' cg tmp i ∧ Empty s' i ∧
      s'.fs.inodes i = some nd' ∧ nd'.kind = .dir ∧ nd'.mode = nd.mode ∧ nd'.ref = nd.ref := by
  obtain ⟨k, rfl⟩ : ∃ k', k = k' + 2 := ⟨k - 2, by omega⟩
  have hP : ∀ cg : Cage, cg.path tmp = [[116, 109, 112]] := by
    intro cg
    rw [Cage.path, normpath_absolute cg.cwd [slash] tmp (by decide)]; decide +kernel
  have w : Walk s.fs.inodes rootIno [[116, 109, 112]] i := by rw [← hP cg]; exact hi
  obtain ⟨par, hr, -⟩ := hR.inv.walk_found hc hi
  have hstat : (step s 0 (.stat tmp)).2 = { ret := .ok 0, stat := some (statOf i nd) } := by
    simp only [step, hc, Fs.stat, hr, hnd]
  have hrem : Removes (remover 0 (k + 2)) 0 tmp [[116, 109, 112]] i h cg.cwd :=
    remover_removes (deltree_spec 0 h (k + 2) hk) (by decide) (fun cg _ => hP cg)
  obtain ⟨s', nd', v1, v2, v3, v4, v5, v6, v7, v8, -, v10⟩ := visit_spec hrem hR hc (by decide) (hP cg) hfree w hnd (isDir_iff.2 hd) hw hs
    hsum (fun n => (hdel n).plain) k
  refine ⟨s', nd', ?_, v3, v2, v4.onlyGone, ?_, ?_, v5, v6.trans hd, v7, v8⟩
  · simp only [cleartmp, hstat]; exact v1
  · unfold Leads; rw [hP cg]
    exact (v4.paths _ i (by decide)).2 ⟨w, fun h => h.2 rfl⟩
  · intro m j hm
    have := ((v10 m j).1 ((entry_iff v5).1 hm)).2
    cases hb : isDots m
    · exact absurd ((isDots_iff m).1 hb) this
    · rfl

/-- C66, C53.  When there is no `/tmp`: at start an empty directory with mode 0777 is made there and nothing else changes (if the root
directory exists, as it always does); at shutdown nothing happens. -/
theorem cleartmp_missing {s : State} (hR : Reach s) {cg : Cage} (hc : s.cages 0 = some cg) (hno : ∀ i, ¬ Leads s cg tmp i) (k : Nat) :
    cleartmp false k s = .done s ∧
    ∃ s' i, cleartmp true k s = .done s' ∧ Reach s' ∧ Leads s' cg tmp i ∧ Empty s' i ∧
      Made s s' rootIno [116, 109, 112] i
        { kind := .dir, mode := 0o40777#32, size := 0, link := 3, ref := 0, ents := [([46], i), ([46, 46], rootIno)] } := by
  have hP : cg.path tmp = [[116, 109, 112]] := by
    rw [Cage.path, normpath_absolute cg.cwd [slash] tmp (by decide)]; decide +kernel
  have hstat := (lookup_exact hR hc tmp).2.1 hno
  have T := hR.inv.fs.tree
  obtain ⟨par, hr, hlook⟩ := hR.inv.walk_missing hc hno
  obtain ⟨rd, hrd, hrdd⟩ := T.root
  have hat : At s cg tmp (.free rootIno [116, 109, 112]) := by
    obtain ⟨pl, r, hr', hat, hf⟩ := found_exists hR hc tmp
    cases hf with
    | root e => rw [hP] at e; simp at e
    | object e w w' hp hd hl hf hg hi => exact absurd (by unfold Leads; assumption) (hno _)
    | nowhere =>
      exfalso
      rw [hr] at hr'
      cases hr'
      cases hlook with
      | gone _ h2 _ =>
        have := h2 [] [116, 109, 112] rootIno rd hP (.here _) hrd
        rw [hrdd] at this; cases this
    | free e w hpd hd hl hf hg =>
      rw [hP] at e
      rename_i d ps n pd
      have e' : ([] : List Name) ++ [[116, 109, 112]] = ps ++ [n] := e
      have := List.append_inj' e' rfl
      have a := this.1; have b := this.2
      simp only [List.cons.injEq, and_true] at b
      subst a; subst b
      cases w
      exact hat
  have hans := mkdir_answer hR hc (p := tmp) (by decide) hat sIRWXA
  have hok : (step s 0 (.mkdir tmp sIRWXA)).2.ret = .ok 0 := by
    rw [hans]; simp only [mkdirAnswer]; rw [if_pos (by decide +kernel)]
  obtain ⟨d, n, i, m1, m2, m3⟩ := mkdir_effect hR hc hok
  have := place_unique hR m1 hat
  simp only [Place.free.injEq] at this
  obtain ⟨rfl, rfl⟩ := this
  refine ⟨by simp only [cleartmp, hstat, Bool.false_eq_true, if_false], (step s 0 (.mkdir tmp sIRWXA)).1, i, ?_, ?_, m2, ?_, m3⟩
  · simp only [cleartmp, hstat, if_true, call, hok]; rw [if_neg (by simp)]
  · exact .step 0 _ hR (by simp only [Tame, hc]) (by rw [hok]; simp)
  · intro m j hm
    have := (entry_iff m3.2.1).1 hm
    simp only [List.mem_cons, Prod.mk.injEq, List.not_mem_nil, or_false] at this
    rcases this with ⟨rfl, -⟩ | ⟨rfl, -⟩ <;> decide

end Verif.FsTools
