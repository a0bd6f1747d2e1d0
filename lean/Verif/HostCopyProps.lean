import Verif.HostCopyFile

/-!
# Copying files of the host into the file system: C75
-/

namespace Verif.HostCopy

open Verif.Path Verif.Fs Verif.Kernel Verif.FsTools

set_option linter.unusedSimpArgs false

/-! ## Lemmas -/

theorem cpInto_eq {s : State} (h : Reach s) {c : Nat} {cg : Cage} (hc : s.cages c = some cg) {p : Str} (hne : cg.path p ≠ [])
    (create : Bool) (content : List UInt8) :
    cpInto c create p content s = match makeDirs c create (ancestors (render []) (cg.path p)) s with
      | .ok s1 => putFile c (render (cg.path p)) content s1
      | .stop s1 => .stopped s1
      | .abort => .abort := by
  have hcw := (h.inv.cage c cg hc).2.2
  obtain ⟨e1, e2⟩ := normpath_path hcw p
  have e3 : names (render (cg.path p)) = cg.path p := names_render e2
  simp only [cpInto, hc, e1, e3, if_neg hne]
  rfl

theorem dirs_same {c : Nat} {s s' : State} : ∀ qs, makeDirs c false qs s = .stop s' → s' = s := by
  intro qs
  induction qs with
  | nil => intro e; cases e
  | cons q qs ih =>
    intro e
    simp only [makeDirs, Bool.false_eq_true, if_false] at e
    repeat' split at e
    all_goals first
      | exact ih e
      | (cases e; rfl)
      | cases e

theorem above_snoc {ns : List Name} (hne : ns ≠ []) : ∃ ps n, ns = ps ++ [n] ∧ Above ps ns := by
  rcases snoc_cases ns with e | ⟨a, n, e⟩
  · exact absurd e hne
  · exact ⟨a, n, e, n, [], by simp [e]⟩

theorem above_prefix {q ns : List Name} (h : Above q ns) : q <+: ns := by
  obtain ⟨n, t, rfl⟩ := h; exact ⟨n :: t, rfl⟩

theorem above_ne {q ns : List Name} (h : Above q ns) : q ≠ ns := by
  rintro rfl
  obtain ⟨n, t, e⟩ := h
  have := congrArg List.length e
  simp at this

theorem above_proper {q ns : List Name} (h : Above q ns) (hg : ∀ n ∈ ns, Good n) : ∀ n ∈ q, Proper n := by
  intro n hn
  obtain ⟨m, t, rfl⟩ := h
  exact Good.proper (hg n (by simp [hn]))

/-- What is known after the loop is enough for the rest. -/
theorem finish {s s1 : State} (h : Reach s) (h1 : Reach s1) {c : Nat} {cg : Cage} (hc : s.cages c = some cg) (hcg : s1.cages = s.cages)
    {ns : List Name} (hne : ns ≠ []) (hg : ∀ n ∈ ns, Good n) (hG : Grown (fun q => Above q ns) (fun _ => False) s s1)
    (hd : ∀ q, Above q ns → ∃ d nd, Walk s1.fs.inodes rootIno q d ∧ s1.fs.inodes d = some nd ∧ modeIsDir nd.mode = true)
    (hpar : ∀ q d nd, Above q ns → Walk s1.fs.inodes rootIno q d → s1.fs.inodes d = some nd → ns = q ++ [ns.getLast hne] → nd.isDir = true)
    (ht : ∀ i, Walk s.fs.inodes rootIno ns i → ∃ n, IsFile s i n) {fd : Nat} (hfd : nextFd cg.fds 0 = some fd) (content : List UInt8) :
    ∃ s' i nd, putFile c (render ns) content s1 = .copied s' ∧ Reach s' ∧ s'.cages = s.cages ∧ Walk s'.fs.inodes rootIno ns i ∧
      s'.fs.inodes i = some nd ∧ nd.kind = .file ∧ nd.size = content.length ∧ bytes s' i = content ∧
      Grown (fun q => q <+: ns) (fun j => j = i) s s' ∧ Grown (fun q => q = ns) (fun j => j = i) s1 s' ∧
      (∀ od, s.fs.inodes i = some od → Walk s.fs.inodes rootIno ns i ∧ nd = { od with size := content.length }) ∧
      (s.fs.inodes i = none → nd.mode = 0o100777#32 ∧ nd.link = 1) ∧
      (∀ j, Walk s.fs.inodes rootIno ns j → j = i) := by
  have hprop : ∀ n ∈ ns, Proper n := fun n hn => Good.proper (hg n hn)
  have hback : ∀ i, Walk s1.fs.inodes rootIno ns i → Walk s.fs.inodes rootIno ns i := by
    intro i w
    rcases hG.fresh ns i hprop w with g | g
    · exact g
    · exact absurd rfl (above_ne g)
  have htarget : (∃ i nd, Walk s1.fs.inodes rootIno ns i ∧ s1.fs.inodes i = some nd ∧ nd.kind = .file) ∨
      ((∀ i, ¬ Walk s1.fs.inodes rootIno ns i) ∧ ∃ ps n d pd, ns = ps ++ [n] ∧ Walk s1.fs.inodes rootIno ps d ∧
        s1.fs.inodes d = some pd ∧ pd.isDir = true) := by
    by_cases hex : ∃ i, Walk s1.fs.inodes rootIno ns i
    · left
      obtain ⟨i, w⟩ := hex
      obtain ⟨n, nd, g1, g2, g3⟩ := ht i (hback i w)
      exact ⟨i, nd, w, (hG.node i nd g1 (by simp only [Inode.isDir, g2]) (by simp)).1, g2⟩
    · right
      refine ⟨fun i w => hex ⟨i, w⟩, ?_⟩
      obtain ⟨ps, n, e, ha⟩ := above_snoc hne
      obtain ⟨d, nd, g1, g2, g3⟩ := hd ps ha
      refine ⟨ps, n, d, nd, e, g1, g2, hpar ps d nd ha g1 g2 ?_⟩
      subst e; simp
  obtain ⟨s', i, nd, p1, p2, p3, p4, p5, p6, p7, p8, p9, p10, p11⟩ := put_run h1 (by rw [hcg]; exact hc) hg hfd content htarget
  have hGG : Grown (fun q => q <+: ns) (fun j => j = i) s s' :=
    (hG.mono (fun q g => above_prefix g) (fun _ g => g.elim)).trans (p9.mono (fun q g => by subst g; exact List.prefix_refl _) (fun _ g => g))
  refine ⟨s', i, nd, p1, p2, p3.trans hcg, p4, p5, p6, p7, p8, hGG, p9, ?_, ?_, ?_⟩
  · intro od hod
    cases hod2 : s1.fs.inodes i with
    | none =>
      cases hb : od.isDir with
      | true => obtain ⟨x, hx, -⟩ := hG.dir i od hod hb; rw [hod2] at hx; cases hx
      | false => have := (hG.node i od hod hb (by simp)).1; rw [hod2] at this; cases this
    | some od2 =>
      obtain ⟨g1, g2⟩ := p10 od2 hod2
      refine ⟨hback i g1, ?_⟩
      have hk2 : od.isDir = false := by
        cases hb : od.isDir with
        | false => rfl
        | true =>
          obtain ⟨x, hx, hx', -⟩ := hG.dir i od hod hb
          rw [hod2] at hx; cases hx
          rw [g2] at p6
          have : od2.isDir = false := by simp only [Inode.isDir, show od2.kind = .file from p6]
          rw [this] at hx'; cases hx'
      have := (hG.node i od hod hk2 (by simp)).1
      rw [hod2] at this; cases this
      exact g2
  · intro hn
    apply p11
    cases hod2 : s1.fs.inodes i with
    | none => rfl
    | some od2 =>
      exfalso
      obtain ⟨g1, -⟩ := p10 od2 hod2
      obtain ⟨x, hx⟩ := Walk.exists h.inv.fs.tree (hback i g1) hprop (by obtain ⟨r, hr, -⟩ := h.inv.fs.tree.root; exact ⟨r, hr⟩)
      rw [hn] at hx; cases hx
  · intro j w
    exact walk_fun p2.inv.fs.tree (hGG.keeps _ _ w) p4

/-! ## C75 -/

/-- C75.  Nothing in the way, the target missing or a regular file, and a descriptor left: the copy is made.  The path leads to a regular
file with exactly the host's content; if there was a file, it is that one, with its permissions and names; otherwise it is a new one.
The ancestors are directories.  Every path leads where it led; only the path and its ancestors are new; no other object is changed;
no descriptor is left open. -/
theorem copy_file {s : State} (h : Reach s) {c : Nat} {cg : Cage} (hc : s.cages c = some cg) {p : Str} {create : Bool}
    (content : List UInt8) (hne : cg.path p ≠ []) (hclear : Clear s (cg.path p))
    (hcr : create = true ∨ ∀ q, Above q (cg.path p) → ∃ d, Walk s.fs.inodes rootIno q d)
    (ht : ∀ i, Leads s cg p i → ∃ n, IsFile s i n) (hfd : ∃ fd, fd < 1024 ∧ cg.fds fd = none) :
    ∃ s' i nd, cpInto c create p content s = .copied s' ∧ Reach s' ∧ s'.cages = s.cages ∧ Leads s' cg p i ∧
      s'.fs.inodes i = some nd ∧ nd.kind = .file ∧ nd.size = content.length ∧ bytes s' i = content ∧ Clear s' (cg.path p) ∧
      Grown (fun q => q <+: cg.path p) (fun j => j = i) s s' ∧
      (∀ od, s.fs.inodes i = some od → Leads s cg p i ∧ nd = { od with size := content.length }) ∧
      (s.fs.inodes i = none → nd.mode = 0o100777#32 ∧ nd.link = 1) ∧ (∀ j, Leads s cg p j → j = i) := by
  have hg := (normpath_path (h.inv.cage c cg hc).2.2 p).2
  obtain ⟨k, k1, k2⟩ := hfd
  cases hn : nextFd cg.fds 0 with
  | none => exact absurd k2 (nextFd_none hn k (Nat.zero_le _) k1)
  | some fd =>
    obtain ⟨s1, hs1⟩ := dirs_ok (c := c) (create := create) (cg.path p) [] s h hc hg hclear hcr (.inl rfl)
    have hrun := dirs_run (c := c) (create := create) (cg.path p) [] s h hc hg
    rw [hs1] at hrun
    obtain ⟨r1, r2, r3, r4⟩ := hrun
    rw [List.nil_append] at r3
    have hdirs : ∀ q, Above q (cg.path p) → ∀ d, Walk s1.fs.inodes rootIno q d →
        ∃ nd, s1.fs.inodes d = some nd ∧ nd.isDir = true ∧ modeIsDir nd.mode = true := by
      intro q hq d w
      obtain ⟨d', nd, g1, g2, g3, g4⟩ := r4 q (List.nil_prefix) (by simpa using hq)
      have := walk_fun r1.inv.fs.tree w g1; subst this
      refine ⟨nd, g2, ?_, g3⟩
      rcases g4 with g4 | g4
      · obtain ⟨od, o1, o2, o3⟩ := hclear q hq _ g4
        obtain ⟨x, x1, x2, -⟩ := r3.dir _ od o1 o2
        rw [g2] at x1; cases x1; exact x2
      · exact g4
    obtain ⟨s', i, nd, p1, p2, p3, p4, p5, p6, p7, p8, p9, p9', p10, p11, p12⟩ := finish h r1 hc r2 hne hg r3
      (fun q hq => by obtain ⟨d, nd, g1, g2, g3, -⟩ := r4 q List.nil_prefix (by simpa using hq); exact ⟨d, nd, g1, g2, g3⟩)
      (fun q d nd hq w hnd _ => by obtain ⟨x, x1, x2, -⟩ := hdirs q hq d w; rw [hnd] at x1; cases x1; exact x2)
      ht hn content
    refine ⟨s', i, nd, ?_, p2, p3, p4, p5, p6, p7, p8, ?_, p9, p10, p11, p12⟩
    · rw [cpInto_eq h hc hne, hs1]; exact p1
    · intro q hq d w
      rcases p9'.fresh q d (above_proper hq hg) w with g | g
      · obtain ⟨x, x1, x2, x3⟩ := hdirs q hq d g
        obtain ⟨y, y1, y2, y3⟩ := p9'.dir d x x1 x2
        exact ⟨y, y1, y2, y3 ▸ x3⟩
      · exact absurd g (above_ne hq)

/-- C75.  Whenever the copy is reported as made, and there was not an object other than a regular file at the path, the path leads to a
regular file with exactly the host's content, and nothing else was changed. -/
theorem copied_holds {s s' : State} (h : Reach s) {c : Nat} {cg : Cage} (hc : s.cages c = some cg) {p : Str} {create : Bool}
    {content : List UInt8} (ht : ∀ i, Leads s cg p i → ∃ n, IsFile s i n) (hcp : cpInto c create p content s = .copied s') :
    Reach s' ∧ s'.cages = s.cages ∧ ∃ i, Leads s' cg p i ∧ IsFile s' i content.length ∧ bytes s' i = content ∧
      Grown (fun q => q <+: cg.path p) (fun j => j = i) s s' ∧ (∀ j, Leads s cg p j → j = i) := by
  have hg := (normpath_path (h.inv.cage c cg hc).2.2 p).2
  by_cases hne : cg.path p = []
  · simp only [cpInto, hc] at hcp
    rw [if_pos (show names (normpath cg.cwd p) = [] from hne)] at hcp
    cases hcp
  rw [cpInto_eq h hc hne] at hcp
  have hrun := dirs_run (c := c) (create := create) (cg.path p) [] s h hc hg
  cases hm : makeDirs c create (ancestors (render []) (cg.path p)) s with
  | stop s1 => rw [hm] at hcp; cases hcp
  | abort => rw [hm] at hcp; cases hcp
  | ok s1 =>
    rw [hm] at hcp hrun
    obtain ⟨r1, r2, r3, r4⟩ := hrun
    rw [List.nil_append] at r3
    have hc1 : s1.cages c = some cg := by rw [r2]; exact hc
    have hpath := path_render (h.inv.cage c cg hc).2.2 hg
    cases hn : nextFd cg.fds 0 with
    | none =>
      exfalso
      simp only [putFile, step, hc1, openSys, if_neg (render_ne _), hn, Out.r] at hcp
      cases hcp
    | some fd =>
      have key := finish h r1 hc r2 hne hg r3
        (fun q hq => by obtain ⟨d, nd, g1, g2, g3, -⟩ := r4 q List.nil_prefix (by simpa using hq); exact ⟨d, nd, g1, g2, g3⟩)
        (fun q d nd hq w hnd hlast => by
          cases hb : nd.isDir with
          | true => rfl
          | false =>
            exfalso
            have hnow : At s1 cg (render (cg.path p)) .nowhere := by
              refine ⟨q, _, by rw [hpath]; exact hlast, ?_⟩
              rintro d' w' ⟨x, x1, x2⟩
              have := walk_fun r1.inv.fs.tree w w'; subst this
              rw [hnd] at x1; cases x1
              simp only [Inode.isDir, x2] at hb
              cases hb
            have := open_answer r1 hc1 (render_ne _) hnow (oCREAT ||| oTRUNC ||| 1#32) sIRWXA hn
            simp only [putFile, this, openAnswer] at hcp
            cases hcp) ht hn content
      obtain ⟨s2, i, nd, p1, p2, p3, p4, p5, p6, p7, p8, p9, -, -, -, p12⟩ := key
      have : s' = s2 := by
        have := hcp.symm.trans p1
        cases this; rfl
      subst this
      exact ⟨p2, p3, i, p4, ⟨nd, p5, p6, p7⟩, p8, p9, p12⟩

/-- C75.  When the copy is given up, directories may have been made on the way to the path, and nothing else. -/
theorem stopped_harmless {s s' : State} (h : Reach s) {c : Nat} {cg : Cage} (hc : s.cages c = some cg) {p : Str} {create : Bool}
    {content : List UInt8} (hcp : cpInto c create p content s = .stopped s') :
    Reach s' ∧ s'.cages = s.cages ∧ Grown (fun q => Above q (cg.path p)) (fun _ => False) s s' ∧ (create = false → s' = s) := by
  have hg := (normpath_path (h.inv.cage c cg hc).2.2 p).2
  by_cases hne : cg.path p = []
  · simp only [cpInto, hc] at hcp
    rw [if_pos (show names (normpath cg.cwd p) = [] from hne)] at hcp
    cases hcp
  rw [cpInto_eq h hc hne] at hcp
  have hrun := dirs_run (c := c) (create := create) (cg.path p) [] s h hc hg
  cases hm : makeDirs c create (ancestors (render []) (cg.path p)) s with
  | stop s1 =>
    rw [hm] at hcp hrun
    cases hcp
    obtain ⟨r1, r2, r3⟩ := hrun
    rw [List.nil_append] at r3
    refine ⟨r1, r2, r3, ?_⟩
    rintro rfl
    exact dirs_same _ hm
  | abort => rw [hm] at hcp; cases hcp
  | ok s1 =>
    rw [hm] at hcp
    simp only [putFile] at hcp
    repeat' split at hcp
    all_goals cases hcp

end Verif.HostCopy
