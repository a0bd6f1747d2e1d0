import Verif.HostCopyUpdate

/-!
# Updating whole trees from the host: C75
-/

namespace Verif.HostCopy

open Verif.Path Verif.Fs Verif.Kernel Verif.FsTools

set_option linter.unusedSimpArgs false

/-! ## Specification -/

mutual
/-- Nothing under a path of the host is other than a regular file, a directory or a symbolic link to nothing. -/
def Host.Plain : Host → Prop
  | .dir children => children.Plain
  | .special => False
  | _ => True
/-- The same for the children of a directory. -/
def Children.Plain : Children → Prop
  | .nil => True
  | .cons _ h rest => h.Plain ∧ rest.Plain
end

/-- The regular files under a path of the host that is put at `P`. -/
def Host.at (t : Host) (P : List Name) : List (List Name × List UInt8) := t.files.map (fun f => (P ++ f.1, f.2))

/-- A file with this content can be updated at this path: nothing is in the way; there is nothing and the file is not empty or its
directory is there; or there is a regular file with this content, or one whose directory can be written. -/
structure Ready (s : State) (ns : List Name) (content : List UInt8) : Prop where
  ne : ns ≠ []
  clear : Clear s ns
  target : ((∀ i, ¬ Walk s.fs.inodes rootIno ns i) ∧
      (content ≠ [] ∨ ∃ ps n d, ns = ps ++ [n] ∧ Walk s.fs.inodes rootIno ps d)) ∨
    ∃ i nd, Walk s.fs.inodes rootIno ns i ∧ s.fs.inodes i = some nd ∧ Regular nd ∧
      (bytes s i = content ∨ ∃ ps n d pd, ns = ps ++ [n] ∧ Walk s.fs.inodes rootIno ps d ∧ s.fs.inodes d = some pd ∧
        pd.mode &&& 0o222#32 ≠ 0)

/-- From `s` to `s'` the files of the list were updated: each is there with its content, and is the one that was there if that had the
content; every other path leads where it led; new paths lead to these files; a directory is still one, with the same mode; another
file has its content and, but for the number of its names, its attributes. -/
structure Renewed (fs : List (List Name × List UInt8)) (s s' : State) : Prop where
  reach : Reach s'
  cages : s'.cages = s.cages
  files : ∀ f ∈ fs, ∃ i nd, Walk s'.fs.inodes rootIno f.1 i ∧ s'.fs.inodes i = some nd ∧ Regular nd ∧ bytes s' i = f.2
  kept : ∀ f ∈ fs, ∀ i nd, Walk s.fs.inodes rootIno f.1 i → s.fs.inodes i = some nd → Regular nd → bytes s i = f.2 →
    Walk s'.fs.inodes rootIno f.1 i
  keeps : ∀ q k, (∀ m ∈ q, Proper m) → (∀ f ∈ fs, q ≠ f.1) → Walk s.fs.inodes rootIno q k → Walk s'.fs.inodes rootIno q k
  fresh : ∀ q k, (∀ m ∈ q, Proper m) → Walk s'.fs.inodes rootIno q k → Walk s.fs.inodes rootIno q k ∨ ∃ f ∈ fs, q <+: f.1
  others : ∀ q k kd, (∀ m ∈ q, Proper m) → (∀ f ∈ fs, q ≠ f.1) → Walk s.fs.inodes rootIno q k → s.fs.inodes k = some kd →
    kd.isDir = false → bytes s' k = bytes s k ∧ ∃ l, s'.fs.inodes k = some { kd with link := l }
  dirs : ∀ q k kd, (∀ m ∈ q, Proper m) → (∀ f ∈ fs, q ≠ f.1) → Walk s.fs.inodes rootIno q k → s.fs.inodes k = some kd →
    kd.isDir = true → ∃ kd', s'.fs.inodes k = some kd' ∧ kd'.isDir = true ∧ kd'.mode = kd.mode
  clear : ∀ f ∈ fs, Clear s' f.1

/-! ## One file -/

theorem Regular.notDir {nd : Inode} (h : Regular nd) : nd.isDir = false := by simp only [Inode.isDir, h.1]

theorem renewed_of_grown {s s' : State} {ns : List Name} {content : List UInt8} (hR : Reach s') (hcg : s'.cages = s.cages) {i : Nat}
    {nd : Inode} (hno : ∀ i, ¬ Walk s.fs.inodes rootIno ns i) (w : Walk s'.fs.inodes rootIno ns i) (hnd : s'.fs.inodes i = some nd)
    (hr : Regular nd) (hb : bytes s' i = content) (hclear : Clear s' ns) (g : Grown (fun q => q <+: ns) (fun _ => False) s s') :
    Renewed [(ns, content)] s s' where
  reach := hR
  cages := hcg
  files f hf := by rw [List.mem_singleton.1 hf]; exact ⟨i, nd, w, hnd, hr, hb⟩
  kept f hf j jd wj := by rw [List.mem_singleton.1 hf] at wj; exact absurd wj (hno j)
  keeps q k _ _ w := g.keeps q k w
  fresh q k hq w := (g.fresh q k hq w).imp id fun h => ⟨_, List.mem_singleton.2 rfl, h⟩
  others q k kd _ _ _ hk hd := by
    obtain ⟨a, b⟩ := g.node k kd hk hd (by simp)
    exact ⟨b, kd.link, a⟩
  dirs q k kd _ _ _ hk hd := g.dir k kd hk hd
  clear f hf := by rw [List.mem_singleton.1 hf]; exact hclear

theorem update_one {s : State} (h : Reach s) {c : Nat} {cg : Cage} (hc : s.cages c = some cg) {p : Str} (hp : p ≠ [])
    {content : List UInt8} (hr : Ready s (cg.path p) content) (hfd : ∃ fd, fd < 1024 ∧ cg.fds fd = none) :
    ∃ s', (updateInto c p content s).run = .done s' ∧ Renewed [(cg.path p, content)] s s' := by
  have T := h.inv.fs.tree
  have hg := (normpath_path (h.inv.cage c cg hc).2.2 p).2
  obtain ⟨r1, r2, r3⟩ := hr
  rcases r3 with ⟨hno, hcont⟩ | ⟨i, nd, hi, hnd, hreg, hx⟩
  · by_cases he : content = []
    · subst he
      obtain ⟨ps, n, d, hP, wd⟩ := hcont.resolve_left (fun h => h rfl)
      obtain ⟨pd, hd, hdd, hdm⟩ := r2 ps ⟨n, [], hP⟩ d wd
      obtain ⟨s', i, nd, k1, k2, k3, k4, k5, k6, k7, -, k8⟩ := update_empty h hc hp hP wd hd hdd hno hfd
      refine ⟨s', by rw [k1]; rfl, renewed_of_grown k2 k3 hno k4 k5 k6 k7 ?_ (k8.mono (by rintro q rfl; exact List.prefix_refl _) fun _ g => g)⟩
      intro q hq e w
      rcases k8.fresh q e (above_proper hq hg) w with g | g
      · obtain ⟨x, x1, x2, x3⟩ := r2 q hq e g
        obtain ⟨y, y1, y2, y3⟩ := k8.dir e x x1 x2
        exact ⟨y, y1, y2, y3 ▸ x3⟩
      · exact absurd g (above_ne hq)
    · obtain ⟨s', i, nd, k1, k2, k3, k4, k5, k6, k7, k8, k9, k10, k11, k12, -⟩ := copy_file h hc (create := true) content
        r1 r2 (.inl rfl) (fun k w => absurd w (hno k)) hfd
      obtain ⟨s2, i2, nd2, j1, j2, j3, j4, j5, j6, j7, -, j8⟩ := update_missing h hc r1 r2 hno he hfd
      have hl : ¬ content.length = 0 := by simpa using he
      have hu : updateInto c p content s = .copied s' := by
        simp only [updateInto, stat_missing h hc hno, if_neg hl, k1]
        simp
      rw [j1] at hu; cases hu
      exact ⟨_, by rw [j1]; rfl, renewed_of_grown j2 j3 hno j4 j5 j6 j7 k9 j8⟩
  · have hnd' := hreg.notDir
    by_cases hb : bytes s i = content
    · obtain ⟨s', k1, k2, k3, k4, k5⟩ := update_same h hc hp hi hnd hreg hb hfd
      have hbs : ∀ j, bytes s' j = bytes s j := fun j => by simp only [bytes, k5]
      refine ⟨s', by rw [k1]; rfl, k2, k3, ?_, ?_, ?_, ?_, ?_, ?_, ?_⟩
      · intro f hf; rw [List.mem_singleton.1 hf, k4]; exact ⟨i, nd, hi, hnd, hreg, by rw [hbs]; exact hb⟩
      · intro f hf j jd w _ _ _; rw [k4]; exact w
      · intro q k _ _ w; rw [k4]; exact w
      · intro q k _ w; rw [k4] at w; exact .inl w
      · intro q k kd _ _ _ hk _; exact ⟨hbs k, kd.link, by rw [k4]; exact hk⟩
      · intro q k kd _ _ _ hk hd; exact ⟨kd, by rw [k4]; exact hk, hd, rfl⟩
      · intro f hf; rw [List.mem_singleton.1 hf]; unfold Clear; rw [k4]; exact r2
    · obtain ⟨ps, n, d, pd, hP, wd, hd, hw⟩ := hx.resolve_left hb
      obtain ⟨s', i', nd', k1, k2, k3, k4, k5, k6, -, k7, k8, k9, k10, k11⟩ :=
        update_differs h hc hp hi hnd hreg hb hP wd hd hw r2 hfd
      refine ⟨s', by rw [k1]; rfl, k2, k3, ?_, ?_, ?_, ?_, ?_, ?_, ?_⟩
      · intro f hf; rw [List.mem_singleton.1 hf]; exact ⟨i', nd', k4, k5, k6, k7⟩
      · intro f hf j jd w _ _ hbj
        rw [List.mem_singleton.1 hf] at w hbj
        have := walk_fun T w hi; subst this
        exact absurd hbj hb
      · intro q k hq hne w; exact (k9 q k hq (hne _ (List.mem_singleton.2 rfl))).2 w
      · intro q k hq w
        by_cases e : q = cg.path p
        · exact .inr ⟨_, List.mem_singleton.2 rfl, by rw [e]; exact List.prefix_refl _⟩
        · exact .inl ((k9 q k hq e).1 w)
      · intro q k kd hq hne w hk hkd
        obtain ⟨-, a, b⟩ := k10 k kd hk hkd (.inr ⟨q, hq, hne _ (List.mem_singleton.2 rfl), w⟩)
        exact ⟨a, b⟩
      · intro q k kd hq _ w hk hkd; exact k11 q k kd hq w hk hkd
      · intro f hf; rw [List.mem_singleton.1 hf]; exact k8

/-! ## Several files -/

/-- No path of one list is a beginning of one of the other. -/
def Apart (fs gs : List (List Name × List UInt8)) : Prop := ∀ f ∈ fs, ∀ g ∈ gs, ¬ f.1 <+: g.1 ∧ ¬ g.1 <+: f.1

theorem Regular.link {nd : Inode} (h : Regular nd) (l) : Regular { nd with link := l } := h

theorem prefix_above {q ns : List Name} (h : q <+: ns) (hne : q ≠ ns) : Above q ns := by
  obtain ⟨z, rfl⟩ := h
  cases z with
  | nil => simp at hne
  | cons a z => exact ⟨a, z, rfl⟩

theorem renewed_trans {fs gs : List (List Name × List UInt8)} {s s1 s2 : State} (hfs : ∀ f ∈ fs, ∀ m ∈ f.1, Good m)
    (hgs : ∀ f ∈ gs, ∀ m ∈ f.1, Good m) (ha : Apart fs gs) (h1 : Renewed fs s s1) (h2 : Renewed gs s1 s2) :
    Renewed (fs ++ gs) s s2 := by
  have pf : ∀ f ∈ fs, ∀ m ∈ f.1, Proper m := fun f hf m hm => Good.proper (hfs f hf m hm)
  have pg : ∀ f ∈ gs, ∀ m ∈ f.1, Proper m := fun f hf m hm => Good.proper (hgs f hf m hm)
  have hne : ∀ f ∈ fs, ∀ g ∈ gs, f.1 ≠ g.1 := fun f hf g hg e => (ha f hf g hg).1 (e ▸ List.prefix_refl _)
  have T1 := h1.reach.inv.fs.tree
  refine ⟨h2.reach, h2.cages.trans h1.cages, ?_, ?_, ?_, ?_, ?_, ?_, ?_⟩
  · intro f hf
    rcases List.mem_append.1 hf with hf | hf
    · obtain ⟨i, nd, a1, a2, a3, a4⟩ := h1.files f hf
      obtain ⟨b1, l, b2⟩ := h2.others f.1 i nd (pf f hf) (hne f hf) a1 a2 a3.notDir
      exact ⟨i, _, h2.keeps f.1 i (pf f hf) (hne f hf) a1, b2, a3.link l, b1.trans a4⟩
    · exact h2.files f hf
  · intro f hf i nd w hnd hr hb
    rcases List.mem_append.1 hf with hf | hf
    · exact h2.keeps f.1 i (pf f hf) (hne f hf) (h1.kept f hf i nd w hnd hr hb)
    · have n : ∀ g ∈ fs, f.1 ≠ g.1 := fun g hg => (hne g hg f hf).symm
      obtain ⟨b1, l, b2⟩ := h1.others f.1 i nd (pg f hf) n w hnd hr.notDir
      exact h2.kept f hf i _ (h1.keeps f.1 i (pg f hf) n w) b2 (hr.link l) (b1.trans hb)
  · intro q k hq n w
    exact h2.keeps q k hq (fun g hg => n g (List.mem_append_right _ hg))
      (h1.keeps q k hq (fun f hf => n f (List.mem_append_left _ hf)) w)
  · intro q k hq w
    rcases h2.fresh q k hq w with g | ⟨g, hg, e⟩
    · rcases h1.fresh q k hq g with g | ⟨f, hf, e⟩
      · exact .inl g
      · exact .inr ⟨f, List.mem_append_left _ hf, e⟩
    · exact .inr ⟨g, List.mem_append_right _ hg, e⟩
  · intro q k kd hq n w hk hd
    have n1 : ∀ f ∈ fs, q ≠ f.1 := fun f hf => n f (List.mem_append_left _ hf)
    obtain ⟨b1, l, b2⟩ := h1.others q k kd hq n1 w hk hd
    obtain ⟨c1, l', c2⟩ := h2.others q k _ hq (fun g hg => n g (List.mem_append_right _ hg)) (h1.keeps q k hq n1 w) b2 hd
    exact ⟨c1.trans b1, l', c2⟩
  · intro q k kd hq n w hk hd
    have n1 : ∀ f ∈ fs, q ≠ f.1 := fun f hf => n f (List.mem_append_left _ hf)
    obtain ⟨x, x1, x2, x3⟩ := h1.dirs q k kd hq n1 w hk hd
    obtain ⟨y, y1, y2, y3⟩ := h2.dirs q k x hq (fun g hg => n g (List.mem_append_right _ hg)) (h1.keeps q k hq n1 w) x1 x2
    exact ⟨y, y1, y2, y3.trans x3⟩
  · intro f hf
    rcases List.mem_append.1 hf with hf | hf
    · intro q hq d w
      have hqp := above_proper hq (hfs f hf)
      have n2 : ∀ g ∈ gs, q ≠ g.1 := by rintro g hg rfl; exact (ha f hf g hg).2 (above_prefix hq)
      rcases h2.fresh q d hqp w with g | ⟨g, hg, e⟩
      · obtain ⟨x, x1, x2, x3⟩ := h1.clear f hf q hq d g
        obtain ⟨y, y1, y2, y3⟩ := h2.dirs q d x hqp n2 g x1 x2
        exact ⟨y, y1, y2, y3 ▸ x3⟩
      · exact h2.clear g hg q (prefix_above e (n2 g hg)) d w
    · exact h2.clear f hf

theorem ready_trans {fs : List (List Name × List UInt8)} {s s1 : State} {ns : List Name} {content : List UInt8}
    (hg : ∀ m ∈ ns, Good m) (ha : Apart fs [(ns, content)]) (h1 : Renewed fs s s1) (hr : Ready s ns content) : Ready s1 ns content := by
  have pn : ∀ m ∈ ns, Proper m := fun m hm => Good.proper (hg m hm)
  have a1 : ∀ f ∈ fs, ¬ f.1 <+: ns := fun f hf => (ha f hf _ (List.mem_singleton.2 rfl)).1
  have a2 : ∀ f ∈ fs, ¬ ns <+: f.1 := fun f hf => (ha f hf _ (List.mem_singleton.2 rfl)).2
  have nn : ∀ f ∈ fs, ns ≠ f.1 := fun f hf e => a2 f hf (e ▸ List.prefix_refl _)
  have nq : ∀ q, Above q ns → ∀ f ∈ fs, q ≠ f.1 := by rintro q hq f hf rfl; exact a1 f hf (above_prefix hq)
  obtain ⟨r1, r2, r3⟩ := hr
  refine ⟨r1, ?_, ?_⟩
  · intro q hq d w
    rcases h1.fresh q d (above_proper hq hg) w with g | ⟨f, hf, e⟩
    · obtain ⟨x, x1, x2, x3⟩ := r2 q hq d g
      obtain ⟨y, y1, y2, y3⟩ := h1.dirs q d x (above_proper hq hg) (nq q hq) g x1 x2
      exact ⟨y, y1, y2, y3 ▸ x3⟩
    · exact h1.clear f hf q (prefix_above e (nq q hq f hf)) d w
  · rcases r3 with ⟨hno, hc⟩ | ⟨i, nd, w, hnd, hreg, hx⟩
    · refine .inl ⟨fun i w => ?_, hc.imp id ?_⟩
      · rcases h1.fresh ns i pn w with g | ⟨f, hf, e⟩
        · exact hno i g
        · exact a2 f hf e
      · rintro ⟨ps, n, d, rfl, wd⟩
        have ab : Above ps (ps ++ [n]) := ⟨n, [], rfl⟩
        exact ⟨ps, n, d, rfl, h1.keeps ps d (above_proper ab hg) (nq ps ab) wd⟩
    · obtain ⟨b1, l, b2⟩ := h1.others ns i nd pn nn w hnd hreg.notDir
      refine .inr ⟨i, _, h1.keeps ns i pn nn w, b2, hreg.link l, hx.imp (fun e => b1.trans e) ?_⟩
      rintro ⟨ps, n, d, pd, rfl, wd, hd, hw⟩
      have ab : Above ps (ps ++ [n]) := ⟨n, [], rfl⟩
      obtain ⟨x, x1, x2, -⟩ := r2 ps ab d wd
      rw [hd] at x1; cases x1
      obtain ⟨y, y1, -, y3⟩ := h1.dirs ps d pd (above_proper ab hg) (nq ps ab) wd hd x2
      exact ⟨ps, n, d, y, rfl, h1.keeps ps d (above_proper ab hg) (nq ps ab) wd, y1, by rw [y3]; exact hw⟩

theorem renewed_nil {s : State} (h : Reach s) : Renewed [] s s :=
  ⟨h, rfl, by simp, by simp, fun _ _ _ _ w => w, fun _ _ _ w => .inl w, fun _ _ kd _ _ _ hk _ => ⟨rfl, kd.link, hk⟩,
    fun _ _ kd _ _ _ hk hd => ⟨kd, hk, hd, rfl⟩, by simp⟩

theorem part_prefix {P a b : List Name} {n m : Name} (h : n ≠ m) : ¬ P ++ n :: a <+: P ++ m :: b := by
  intro hp
  rw [List.prefix_append_right_inj, List.cons_prefix_cons] at hp
  exact h hp.1

mutual
theorem updateTree_run {c : Nat} {cg : Cage} : ∀ (t : Host), t.Ok → t.Plain → ∀ (p : Str) (s : State), p ≠ [] → Reach s →
    s.cages c = some cg → (∃ fd, fd < 1024 ∧ cg.fds fd = none) → (∀ f ∈ t.files, Ready s (cg.path p ++ f.1) f.2) →
    ∃ s', updateTree c t p s = .done s' ∧ Renewed (t.files.map fun f => (cg.path p ++ f.1, f.2)) s s'
  | .file content => by
    intro _ _ p s hp h hc hfd hr
    rw [Host.files] at hr ⊢
    have hr := hr _ (List.mem_singleton.2 rfl)
    simp only [List.append_nil] at hr
    rw [updateTree]
    simpa using update_one h hc hp hr hfd
  | .dir ch => by
    intro hok hpl p s hp h hc hfd hr
    rw [Host.Ok] at hok
    rw [Host.Plain] at hpl
    rw [Host.files] at hr ⊢
    rw [updateTree]
    exact updateChildren_run ch hok hpl p s hp h hc hfd hr
  | .special => by
    intro _ hpl
    rw [Host.Plain] at hpl; exact hpl.elim
  | .dangling => by
    intro _ _ p s _ h _ _ _
    rw [Host.files, updateTree]; exact ⟨s, rfl, renewed_nil h⟩
theorem updateChildren_run {c : Nat} {cg : Cage} : ∀ (ch : Children), ch.Ok → ch.Plain → ∀ (p : Str) (s : State), p ≠ [] → Reach s →
    s.cages c = some cg → (∃ fd, fd < 1024 ∧ cg.fds fd = none) → (∀ f ∈ ch.files, Ready s (cg.path p ++ f.1) f.2) →
    ∃ s', updateChildren c ch p s = .done s' ∧ Renewed (ch.files.map fun f => (cg.path p ++ f.1, f.2)) s s'
  | .nil => by
    intro _ _ p s _ h _ _ _
    rw [Children.files, updateChildren]; exact ⟨s, rfl, renewed_nil h⟩
  | .cons n t rest => by
    intro hok hpl p s hp h hc hfd hr
    have hgood := children_good _ hok
    rw [Children.Ok] at hok
    rw [Children.Plain] at hpl
    obtain ⟨o1, o2, o3, o4⟩ := hok
    have hcw := (h.inv.cage c cg hc).2.2
    have gP := (normpath_path hcw p).2
    obtain ⟨e1, e2⟩ := child_path hcw hp o1
    rw [Children.files] at hr hgood ⊢
    rw [updateChildren]
    have hg2 : ∀ f ∈ t.files.map (fun f => (n :: f.1, f.2)) ++ rest.files, ∀ m ∈ cg.path p ++ f.1, Good m := by
      intro f hf m hm
      rcases List.mem_append.1 hm with g | g
      · exact gP m g
      · exact hgood f hf m g
    have hdis : ∀ g ∈ rest.files, ∃ m z, g.1 = m :: z ∧ n ≠ m := by
      intro g hg
      obtain ⟨m, z, e, hm⟩ := files_names rest g hg
      exact ⟨m, z, e, by rintro rfl; exact o2 hm⟩
    obtain ⟨s1, k1, k2⟩ := updateTree_run t o3 hpl.1 (child p n) s e2 h hc hfd (by
      intro f hf
      rw [e1]
      have := hr (n :: f.1, f.2) (List.mem_append_left _ (List.mem_map.2 ⟨f, hf, rfl⟩))
      simpa using this)
    rw [e1] at k2
    have hc1 : s1.cages c = some cg := by rw [k2.cages]; exact hc
    have hap : ∀ f ∈ t.files.map (fun f => (cg.path p ++ [n] ++ f.1, f.2)), ∀ g ∈ rest.files,
        ¬ f.1 <+: cg.path p ++ g.1 ∧ ¬ cg.path p ++ g.1 <+: f.1 := by
      intro f hf g hg
      obtain ⟨f0, hf0, rfl⟩ := List.mem_map.1 hf
      obtain ⟨m, z, e, hnm⟩ := hdis g hg
      simp only [List.append_assoc, List.singleton_append, e]
      exact ⟨part_prefix hnm, part_prefix hnm.symm⟩
    obtain ⟨s2, j1, j2⟩ := updateChildren_run rest o4 hpl.2 p s1 hp k2.reach hc1 hfd (by
      intro g hg
      refine ready_trans (hg2 g (List.mem_append_right _ hg)) ?_ k2 (hr g (List.mem_append_right _ hg))
      intro f hf x hx
      rw [List.mem_singleton.1 hx]
      exact hap f hf g hg)
    refine ⟨s2, by rw [k1]; exact j1, ?_⟩
    have e3 : (t.files.map (fun f => (n :: f.1, f.2)) ++ rest.files).map (fun f => (cg.path p ++ f.1, f.2)) =
        t.files.map (fun f => (cg.path p ++ [n] ++ f.1, f.2)) ++ rest.files.map (fun f => (cg.path p ++ f.1, f.2)) := by
      simp only [List.map_append, List.map_map, Function.comp_def, List.append_assoc, List.singleton_append]
    rw [e3]
    refine renewed_trans ?_ ?_ ?_ k2 j2
    · intro f hf
      obtain ⟨f0, hf0, rfl⟩ := List.mem_map.1 hf
      have := hg2 (n :: f0.1, f0.2) (List.mem_append_left _ (List.mem_map.2 ⟨f0, hf0, rfl⟩))
      simpa using this
    · intro f hf
      obtain ⟨f0, hf0, rfl⟩ := List.mem_map.1 hf
      exact hg2 f0 (List.mem_append_right _ hf0)
    · intro f hf g hg
      obtain ⟨g0, hg0, rfl⟩ := List.mem_map.1 hg
      exact hap f hf g0 hg0
end

/-! ## C75 -/

/-- C75.  A tree of host files used for an update: every regular file of it is there, under its path, with its content, and the ones that had
it already are untouched; nothing else is new but the directories on the way to these files, nothing else is changed, and no descriptor is
left open. -/
theorem update_tree {s : State} (h : Reach s) {c : Nat} {cg : Cage} (hc : s.cages c = some cg) {p : Str} (hp : p ≠ []) {t : Host}
    (ht : t.Ok) (hpl : t.Plain) (hfd : ∃ fd, fd < 1024 ∧ cg.fds fd = none) (hr : ∀ f ∈ t.at (cg.path p), Ready s f.1 f.2) :
    ∃ s', updateTree c t p s = .done s' ∧ Renewed (t.at (cg.path p)) s s' := by
  refine updateTree_run t ht hpl p s hp h hc hfd fun f hf => ?_
  exact hr (cg.path p ++ f.1, f.2) (List.mem_map.2 ⟨f, hf, rfl⟩)

end Verif.HostCopy
