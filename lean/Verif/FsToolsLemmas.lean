import Verif.FsTools
import Verif.DirDevProps

/-! # Lemmas about the tools that walk a directory tree: what removing a subtree does to the rest -/

namespace Verif.FsTools

open Verif.Path Verif.Fs Verif.Kernel

/-! ## Paths to directories -/

theorem snoc_cases {α : Type} (l : List α) : l = [] ∨ ∃ xs x, l = xs ++ [x] := by
  rcases List.eq_nil_or_concat l with e | ⟨a, b, e⟩
  · exact .inl e
  · exact .inr ⟨a, b, by rw [e, List.concat_eq_append]⟩

/-- A directory has one path. -/
theorem dir_path_unique {ino : Nat → Option Inode} {next : Nat} (T : Tree ino next) :
    ∀ (len : Nat) {q q' : List Name} {k : Nat} {nd : Inode}, q.length = len → Walk ino rootIno q k → Walk ino rootIno q' k →
      (∀ n ∈ q, Proper n) → (∀ n ∈ q', Proper n) → ino k = some nd → nd.isDir → q = q' := by
  intro len
  induction len with
  | zero =>
    intro q q' k nd hl w w' hq hq' hk hd
    have := List.eq_nil_of_length_eq_zero hl; subst this
    rcases snoc_cases q' with e | ⟨a, m, e⟩
    · exact e.symm
    · subst e
      cases w
      obtain ⟨e, x, -, hx, -, hm⟩ := w'.split
      exact absurd rfl (T.ent hx hm (hq' m (by simp))).2.1
  | succ len ih =>
    intro q q' k nd hl w w' hq hq' hk hd
    rcases snoc_cases q with e | ⟨a, n, e⟩
    · subst e; simp at hl
    · subst e
      obtain ⟨e, x, we, hx, hxd, hm⟩ := w.split
      rcases snoc_cases q' with e' | ⟨b, m, e'⟩
      · subst e'; cases w'
        exact absurd rfl (T.ent hx hm (hq n (by simp))).2.1
      · subst e'
        obtain ⟨e', y, we', hy, hyd, hm'⟩ := w'.split
        obtain ⟨-, -, -, z, hz, h1⟩ := T.ent hx hm (hq n (by simp))
        rw [hk] at hz; cases hz
        obtain ⟨-, -, -, z, hz, h2⟩ := T.ent hy hm' (hq' m (by simp))
        rw [hk] at hz; cases hz
        have ee := (h1 hd).1
        rw [(h2 hd).1] at ee; cases ee
        rw [hx] at hy; cases hy
        have en := T.one hx hm hm' (hq n (by simp)) (hq' m (by simp)) hk hd
        subst en
        rw [ih (by simpa using hl) we we' (fun n hn => hq n (by simp [hn])) (fun n hn => hq' n (by simp [hn])) hx hxd]

/-- Prefixes of a path and one more name. -/
theorem prefix_snoc {α : Type} {P q : List α} {m : α} : P <+: q ++ [m] ↔ P <+: q ∨ P = q ++ [m] := by
  rw [List.prefix_concat_iff]
  constructor
  · rintro (h | h)
    · exact .inr h
    · exact .inl h
  · rintro (h | h)
    · exact .inr h
    · exact .inl h

/-- Taking the entry `n` out of the directory at `ps`, and doing anything to the inode it named but changing whether it is a
directory, leaves exactly the paths that do not go through that entry. -/
theorem cut_paths {ino ino' : Nat → Option Inode} {next : Nat} (T : Tree ino next) {d i l : Nat} {pd nd : Inode} {ps : List Name}
    {n : Name} (wd : Walk ino rootIno ps d) (gps : ∀ m ∈ ps, Proper m) (gn : Proper n) (hd : ino d = some pd) (hdd : pd.isDir)
    (he : entGet pd.ents n = some i) (hi : ino i = some nd) (hne : i ≠ d)
    (hd' : ino' d = some { pd with ents := entDel pd.ents n, link := l }) (hsame : ∀ j, j ≠ i → j ≠ d → ino' j = ino j)
    (hi' : ino' i = none ∨ ∃ nd', ino' i = some nd' ∧ nd'.isDir = nd.isDir) :
    ∀ (len : Nat) (q : List Name) (k : Nat), q.length = len → (∀ m ∈ q, Proper m) →
      (Walk ino' rootIno q k ↔ Walk ino rootIno q k ∧ ¬ ps ++ [n] <+: q) := by
  have gP : ∀ m ∈ ps ++ [n], Proper m := by
    intro m hm
    rcases List.mem_append.1 hm with h | h
    · exact gps m h
    · rw [List.mem_singleton.1 h]; exact gn
  have wP : Walk ino rootIno (ps ++ [n]) i := wd.snoc hd hdd (entGet_mem he)
  intro len
  induction len with
  | zero =>
    intro q k hl gq
    have := List.eq_nil_of_length_eq_zero hl; subst this
    constructor
    · intro w; cases w
      exact ⟨.here _, fun hp => by simpa using List.prefix_nil.1 hp⟩
    · rintro ⟨w, -⟩; cases w; exact .here _
  | succ len ih =>
    intro q k hl gq
    rcases snoc_cases q with e | ⟨a, m, e⟩
    · subst e; simp at hl
    subst e
    have la : a.length = len := by simpa using hl
    have ga : ∀ m ∈ a, Proper m := fun x hx => gq x (by simp [hx])
    constructor
    · intro w
      obtain ⟨e, x, we, hx, hxd, hm⟩ := w.split
      obtain ⟨we0, hna⟩ := (ih a e la ga).1 we
      by_cases ed : e = d
      · subst ed
        rw [hd'] at hx; cases hx
        obtain ⟨hm0, hmn⟩ := mem_entDel.1 hm
        refine ⟨we0.snoc hd hdd hm0, ?_⟩
        rw [prefix_snoc]
        rintro (h | h)
        · exact hna h
        · have := List.append_inj' h rfl
          simp only [List.cons.injEq, and_true] at this
          exact hmn this.2.symm
      · by_cases ei : e = i
        · subst ei
          exfalso
          rcases hi' with h | ⟨nd', h, hk⟩
          · rw [h] at hx; cases hx
          · rw [h] at hx; cases hx
            have := dir_path_unique T _ rfl we0 wP ga gP hi (by rw [← hk]; exact hxd)
            exact hna (this ▸ List.prefix_refl _)
        · rw [hsame e ei ed] at hx
          refine ⟨we0.snoc hx hxd hm, ?_⟩
          rw [prefix_snoc]
          rintro (h | h)
          · exact hna h
          · have := List.append_inj' h rfl
            have e1 := this.1
            subst e1
            exact ed (walk_fun T we0 wd)
    · rintro ⟨w, hnp⟩
      rw [prefix_snoc] at hnp
      obtain ⟨e, x, we, hx, hxd, hm⟩ := w.split
      have we' := (ih a e la ga).2 ⟨we, fun h => hnp (.inl h)⟩
      by_cases ed : e = d
      · subst ed
        rw [hd] at hx; cases hx
        refine we'.snoc hd' hdd (mem_entDel.2 ⟨hm, ?_⟩)
        intro emn
        have := dir_path_unique T _ rfl we wd ga gps hd hdd
        subst this; subst emn
        exact hnp (.inr rfl)
      · by_cases ei : e = i
        · subst ei
          have := dir_path_unique T _ rfl we wP ga gP hx hxd
          exact absurd (.inl (this ▸ List.prefix_refl _)) hnp
        · exact we'.snoc (by rw [hsame e ei ed]; exact hx) hxd hm

/-! ## Removing paths -/

/-- From `s` to `s'` exactly the paths in `A` disappear; directories outside `A` and `B` keep everything; everything else
that has a path left or is open keeps everything but the number of its names. -/
structure Cut (A B : List Name → Prop) (s s' : State) : Prop where
  paths : ∀ q k, (∀ m ∈ q, Proper m) → (Walk s'.fs.inodes rootIno q k ↔ Walk s.fs.inodes rootIno q k ∧ ¬ A q)
  dirs : ∀ q k nd, (∀ m ∈ q, Proper m) → ¬ A q → ¬ B q → Walk s.fs.inodes rootIno q k → s.fs.inodes k = some nd → nd.isDir →
    s'.fs.inodes k = some nd
  files : ∀ k nd, s.fs.inodes k = some nd → nd.isDir = false →
    (0 < nd.ref ∨ ∃ q, (∀ m ∈ q, Proper m) ∧ ¬ A q ∧ Walk s.fs.inodes rootIno q k) →
    ∃ l, s'.fs.inodes k = some { nd with link := l } ∧ s'.fs.disk k = s.fs.disk k

theorem Cut.refl (B : List Name → Prop) (s : State) : Cut (fun _ => False) B s s where
  paths q k _ := by simp
  dirs q k nd _ _ _ _ h _ := h
  files k nd h _ _ := ⟨nd.link, h, rfl⟩

theorem Cut.trans {A A' B : List Name → Prop} {s s' s'' : State} (h : Cut A B s s') (h' : Cut A' B s' s'') :
    Cut (fun q => A q ∨ A' q) B s s'' where
  paths q k gq := by
    rw [h'.paths q k gq, h.paths q k gq]
    constructor
    · rintro ⟨⟨a, b⟩, c⟩; exact ⟨a, fun x => x.elim b c⟩
    · rintro ⟨a, b⟩; exact ⟨⟨a, fun x => b (.inl x)⟩, fun x => b (.inr x)⟩
  dirs q k nd gq hA hB w hk hd :=
    h'.dirs q k nd gq (fun x => hA (.inr x)) hB ((h.paths q k gq).2 ⟨w, fun x => hA (.inl x)⟩)
      (h.dirs q k nd gq (fun x => hA (.inl x)) hB w hk hd) hd
  files k nd hk hd hx := by
    obtain ⟨l, h1, h2⟩ := h.files k nd hk hd (hx.imp id (fun ⟨q, a, b, c⟩ => ⟨q, a, fun x => b (.inl x), c⟩))
    obtain ⟨l', h3, h4⟩ := h'.files k _ h1 hd (hx.imp id (fun ⟨q, a, b, c⟩ =>
      ⟨q, a, fun x => b (.inr x), (h.paths q k a).2 ⟨c, fun x => b (.inl x)⟩⟩))
    exact ⟨l', h3, h4.trans h2⟩

theorem Cut.weaken {A A' B B' : List Name → Prop} {s s' : State} (h : Cut A B s s')
    (hA : ∀ q k, (∀ m ∈ q, Proper m) → Walk s.fs.inodes rootIno q k → (A q ↔ A' q))
    (hB : ∀ q k nd, (∀ m ∈ q, Proper m) → Walk s.fs.inodes rootIno q k → s.fs.inodes k = some nd → nd.isDir → ¬ A' q → B q → B' q) :
    Cut A' B' s s' where
  paths q k gq := by
    rw [h.paths q k gq]
    exact ⟨fun ⟨a, b⟩ => ⟨a, fun x => b ((hA q k gq a).2 x)⟩, fun ⟨a, b⟩ => ⟨a, fun x => b ((hA q k gq a).1 x)⟩⟩
  dirs q k nd gq a b w hk hd :=
    h.dirs q k nd gq (fun x => a ((hA q k gq w).1 x)) (fun x => b (hB q k nd gq w hk hd a x)) w hk hd
  files k nd hk hd hx := h.files k nd hk hd (hx.imp id (fun ⟨q, a, b, c⟩ => ⟨q, a, fun x => b ((hA q k a c).1 x), c⟩))

/-! ## The calls -/

/-- The outcome of a call that took the entry `n` out of the directory `d` at `ps`. -/
structure Took (c : Nat) (ps : List Name) (n : Name) (d : Nat) (pd : Inode) (s s' : State) : Prop where
  cages : s'.cages = s.cages
  reach : Reach s'
  cut : Cut (fun q => ps ++ [n] <+: q) (fun q => q = ps) s s'
  par : s'.fs.inodes d = some { pd with ents := entDel pd.ents n, link := pd.link - 1 }

/-- What a path that leads somewhere tells. -/
theorem found_at {s : State} (h : Reach s) {c : Nat} {cg : Cage} (hc : s.cages c = some cg) {p : Str} {i d : Nat} {ps : List Name}
    {n : Name} {pd : Inode} (hi : Leads s cg p i) (hP : cg.path p = ps ++ [n]) (wd : Walk s.fs.inodes rootIno ps d)
    (hd : s.fs.inodes d = some pd) :
    s.fs.walk (ps ++ [n]) = some (some i, some d) ∧ pd.isDir ∧ entGet pd.ents n = some i ∧ Good n ∧ i ≠ d ∧ i ≠ 7 ∧
      Live s.fs.inodes d ∧ ∀ m ∈ ps, Proper m := by
  have T := h.inv.fs.tree
  have gp := h.inv.gp hc p
  obtain ⟨par, hr, hlook⟩ := h.inv.walk_found hc hi
  cases hlook with
  | root e => rw [e] at hP; simp at hP
  | found heq w w' hpar hdd hl hf hg hi0 h1 h7 hne =>
    rename_i par ps' n' pd' nd'
    rw [heq] at hP
    have e := List.append_inj' hP rfl
    have e2 := e.2
    simp only [List.cons.injEq, and_true] at e2
    have e1 := e.1
    subst e1; subst e2
    have := walk_fun T w wd; subst this
    rw [hd] at hpar; cases hpar
    rw [heq] at hr gp
    exact ⟨hr, hdd, hf, hg, hne, h7, hl, fun m hm => Good.proper (gp m (by simp [hm]))⟩

theorem unlink_cut {s : State} (h : Reach s) {c : Nat} {cg : Cage} (hc : s.cages c = some cg) {p : Str} {i d : Nat} {nd pd : Inode}
    {ps : List Name} {n : Name} (hp : p ≠ []) (hi : Leads s cg p i) (hnd : s.fs.inodes i = some nd) (hk : nd.isDir = false)
    (hP : cg.path p = ps ++ [n]) (wd : Walk s.fs.inodes rootIno ps d) (hd : s.fs.inodes d = some pd)
    (hw : pd.mode &&& sIWALL ≠ 0) :
    ∃ s', call s c (.unlink p) = .done s' ∧ Took c ps n d pd s s' := by
  have T := h.inv.fs.tree
  obtain ⟨hr, hdd, hf, hg, hne, h7, hl, gps⟩ := found_at h hc hi hP wd hd
  have hdisk : nd.isFile = true → s.fs.disk i ≠ none := by
    intro e
    have := h.inv.content (i := i) (size := nd.size) ⟨nd, hnd, isFile_iff.1 e, rfl⟩
    rw [this.1]; simp
  obtain ⟨fs', q, q1, q2, q3, q4, q5, q6, q7⟩ := unlink_eq hr hd hdd hnd hk hf hne hw hdisk
  have hst : step s c (.unlink p) = ({ s with fs := fs' }, .r (.ok 0)) := by
    simp only [step, hc, nonEmpty, hp, if_false, State.onFs, hP, q]
  have hR : Reach { s with fs := fs' } := by
    have := Reach.step c (.unlink p) h (by
      simp only [Tame, hc]
      intro i' par' pd' hr2 hpar2
      rw [hP, hr] at hr2; cases hr2
      rw [hd] at hpar2; cases hpar2
      exact hw) (by rw [hst]; simp [Out.r])
    rw [hst] at this; exact this
  refine ⟨{ s with fs := fs' }, by simp [call, hst, Out.r], rfl, hR, ?_, q5⟩
  have hpaths := fun q k gq => cut_paths (ino' := fs'.inodes) T wd gps (Good.proper hg) hd hdd hf hnd hne q5 q4 (by
    by_cases hz : nd.link - 1 = 0 ∧ nd.ref = 0
    · exact .inl (q6 hz).1
    · exact .inr ⟨_, (q7 hz).1, rfl⟩) _ q k rfl gq
  refine ⟨hpaths, ?_, ?_⟩
  · intro q k x gq hA hB w hx hxd
    have e1 : k ≠ i := by rintro rfl; rw [hnd] at hx; cases hx; rw [hk] at hxd; cases hxd
    have e2 : k ≠ d := by
      rintro rfl
      exact hB (dir_path_unique T _ rfl w wd gq gps hx hxd)
    rw [← hx]; exact q4 k e1 e2
  · intro k x hx hxd hor
    have e2 : k ≠ d := by rintro rfl; rw [hd] at hx; cases hx; rw [hdd] at hxd; cases hxd
    by_cases e1 : k = i
    · subst e1
      rw [hnd] at hx; cases hx
      by_cases hz : nd.link - 1 = 0 ∧ nd.ref = 0
      · exfalso
        rcases hor with h0 | ⟨q, gq, hA, w⟩
        · omega
        · have w' := (hpaths q k gq).2 ⟨w, hA⟩
          obtain ⟨x, hx⟩ := Walk.exists hR.inv.fs.tree w' gq (by obtain ⟨x, h1, -⟩ := hR.inv.fs.tree.root; exact ⟨x, h1⟩)
          rw [(q6 hz).1] at hx; cases hx
      · exact ⟨_, (q7 hz).1, (q7 hz).2⟩
    · exact ⟨x.link, by rw [← hx]; exact q4 k e1 e2, q3 k e1⟩

theorem rmdir_cut {s : State} (h : Reach s) {c : Nat} {cg : Cage} (hc : s.cages c = some cg) {p : Str} {i d : Nat} {nd pd : Inode}
    {ps : List Name} {n : Name} (hp : p ≠ []) (hi : Leads s cg p i) (hnd : s.fs.inodes i = some nd) (hk : nd.isDir)
    (hP : cg.path p = ps ++ [n]) (wd : Walk s.fs.inodes rootIno ps d) (hd : s.fs.inodes d = some pd)
    (hw : pd.mode &&& sIWALL ≠ 0) (he : ∀ m j, (m, j) ∈ nd.ents → ¬ Proper m) (hty : modeIsDir nd.mode = true)
    (hown : nd.mode &&& sIWALL ≠ 0) :
    ∃ s', call s c (.rmdir p) = .done s' ∧ Took c ps n d pd s s' := by
  have T := h.inv.fs.tree
  obtain ⟨hr, hdd, hf, hg, hne, h7, hl, gps⟩ := found_at h hc hi hP wd hd
  have hlink : nd.link ≤ 3 := by
    refine (empty_iff h hnd hk h7).1 ?_
    intro m j hm
    have := he m j ((entry_iff hnd).1 hm)
    cases hb : isDots m
    · exact absurd ((isDots_iff m).1 hb) this
    · rfl
  obtain ⟨fs', q, q1, q2, q3, q4⟩ := rmdir_eq hr hd hdd hnd hk hf hne hw hlink hty hown
  have hst : step s c (.rmdir p) = ({ s with fs := fs' }, .r (.ok 0)) := by
    simp only [step, hc, nonEmpty, hp, if_false, State.onFs, hP, q]
  have hR : Reach { s with fs := fs' } := by
    have := Reach.step c (.rmdir p) h (by simp only [Tame, hc]) (by rw [hst]; simp [Out.r])
    rw [hst] at this; exact this
  have hd' : fs'.inodes d = some { pd with ents := entDel pd.ents n, link := pd.link - 1 } := by
    rw [q4]; simp only; split <;> simp [hne.symm]
  have hsame : ∀ j, j ≠ i → j ≠ d → fs'.inodes j = s.fs.inodes j := by
    intro j a b; rw [q4]; simp only; split <;> simp [a, b]
  have hi' : fs'.inodes i = none ∨ ∃ nd', fs'.inodes i = some nd' ∧ nd'.isDir = nd.isDir := by
    rw [q4]; simp only; split
    · exact .inl (by simp)
    · exact .inr ⟨nd, by simp [hne, hnd], rfl⟩
  refine ⟨{ s with fs := fs' }, by simp [call, hst, Out.r], rfl, hR, ?_, hd'⟩
  have wP : Walk s.fs.inodes rootIno (ps ++ [n]) i := by rw [← hP]; exact hi
  have gP : ∀ m ∈ ps ++ [n], Proper m := by
    intro m hm
    rcases List.mem_append.1 hm with h | h
    · exact gps m h
    · rw [List.mem_singleton.1 h]; exact Good.proper hg
  refine ⟨fun q k gq => cut_paths (ino' := fs'.inodes) T wd gps (Good.proper hg) hd hdd hf hnd hne hd' hsame hi' _ q k rfl gq, ?_, ?_⟩
  · intro q k x gq hA hB w hx hxd
    have e1 : k ≠ i := by
      rintro rfl
      exact hA (dir_path_unique T _ rfl w wP gq gP hx hxd ▸ List.prefix_refl _)
    have e2 : k ≠ d := by
      rintro rfl
      exact hB (dir_path_unique T _ rfl w wd gq gps hx hxd)
    rw [← hx]; exact hsame k e1 e2
  · intro k x hx hxd _
    have e2 : k ≠ d := by rintro rfl; rw [hd] at hx; cases hx; rw [hdd] at hxd; cases hxd
    have e1 : k ≠ i := by rintro rfl; rw [hnd] at hx; cases hx; rw [hk] at hxd; cases hxd
    exact ⟨x.link, by rw [← hx]; exact hsame k e1 e2, by rw [q1]⟩

/-- Changing a directory's mode or number of descriptors removes no path and touches nothing but that directory. -/
theorem cut_attr {s s' : State} (h : Reach s) {i : Nat} {nd nd' : Inode} {P : List Name} (hP : ∀ m ∈ P, Proper m)
    (w : Walk s.fs.inodes rootIno P i) (hnd : s.fs.inodes i = some nd) (hk : nd.isDir) (hk' : nd'.kind = nd.kind)
    (he : nd'.ents = nd.ents) (hino : s'.fs.inodes = upd s.fs.inodes i (some nd')) (hdisk : s'.fs.disk = s.fs.disk) :
    Cut (fun _ => False) (fun q => q = P) s s' := by
  have T := h.inv.fs.tree
  have hkd : nd'.isDir = nd.isDir := by simp only [Inode.isDir, hk']
  have key : ∀ {d q k}, Walk s'.fs.inodes d q k ↔ Walk s.fs.inodes d q k := by
    intro d q k
    constructor
    · intro w
      induction w with
      | here => exact .here _
      | down a b m _ ih =>
        rw [hino, upd_apply] at a
        split at a
        · rename_i e; subst e; cases a
          exact .down hnd hk (he ▸ m) ih
        · exact .down a b m ih
    · intro w
      induction w with
      | here => exact .here _
      | down a b m _ ih =>
        rename_i d' _ _ _ _ x _
        by_cases e : d' = i
        · subst e
          rw [hnd] at a; cases a
          exact .down (by rw [hino, upd_same]) (by rw [hkd]; exact hk) (by rw [he]; exact m) ih
        · exact .down (by rw [hino, upd_ne _ _ e]; exact a) b m ih
  refine ⟨fun q k _ => by rw [key]; simp, ?_, ?_⟩
  · intro q k x gq _ hB wq hx hxd
    have : k ≠ i := by rintro rfl; exact hB (dir_path_unique T _ rfl wq w gq hP hx hxd)
    rw [hino, upd_ne _ _ this]; exact hx
  · intro k x hx hxd _
    have : k ≠ i := by rintro rfl; rw [hnd] at hx; cases hx; rw [hk] at hxd; cases hxd
    exact ⟨x.link, by rw [hino, upd_ne _ _ this]; exact hx, by rw [hdisk]⟩

end Verif.FsTools
