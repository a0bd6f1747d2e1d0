import Verif.HostCopySpec
import Verif.OpenTruncProps
import Verif.FsToolsCalls

/-! # Lemmas on the copy tools -/

namespace Verif.HostCopy

open Verif.Path Verif.Fs Verif.Kernel Verif.FsTools

set_option linter.unusedSimpArgs false

/-! ## How the tree grows -/

theorem Grown.refl (P : List Name → Prop) (E : Nat → Prop) (s : State) : Grown P E s s :=
  ⟨fun _ _ h => h, fun _ _ _ h => .inl h, fun _ _ h _ _ => ⟨h, rfl⟩, fun _ nd h hd => ⟨nd, h, hd, rfl⟩⟩

theorem Grown.trans {P : List Name → Prop} {E : Nat → Prop} {s s' s'' : State} (h : Grown P E s s') (h' : Grown P E s' s'') :
    Grown P E s s'' where
  keeps q k w := h'.keeps q k (h.keeps q k w)
  fresh q k hq w := by
    rcases h'.fresh q k hq w with g | g
    · exact h.fresh q k hq g
    · exact .inr g
  node j nd hj hd he := by
    obtain ⟨g1, g2⟩ := h.node j nd hj hd he
    obtain ⟨g3, g4⟩ := h'.node j nd g1 hd he
    exact ⟨g3, g4.trans g2⟩
  dir j nd hj hd := by
    obtain ⟨nd', g1, g2, g3⟩ := h.dir j nd hj hd
    obtain ⟨nd'', g4, g5, g6⟩ := h'.dir j nd' g1 g2
    exact ⟨nd'', g4, g5, g6.trans g3⟩

theorem Grown.mono {P P' : List Name → Prop} {E E' : Nat → Prop} {s s' : State} (h : Grown P E s s') (hP : ∀ q, P q → P' q)
    (hE : ∀ j, E j → E' j) : Grown P' E' s s' where
  keeps := h.keeps
  fresh q k hq w := (h.fresh q k hq w).imp id (hP q)
  node j nd hj hd he := h.node j nd hj hd (fun g => he (hE j g))
  dir := h.dir

/-- Making an object that has no proper entries. -/
theorem grown_make {s s' : State} (h : Reach s) (h' : Reach s') {d new : Nat} {pd nd0 : Inode} {ps : List Name} {n : Name} {l : Nat}
    (wd : Walk s.fs.inodes rootIno ps d) (gps : ∀ m ∈ ps, Proper m) (hd : s.fs.inodes d = some pd) (hdd : pd.isDir)
    (hfree : entGet pd.ents n = none) (hnew : s.fs.inodes new = none)
    (hi : s'.fs.inodes = upd (upd s.fs.inodes d (some { pd with ents := entPut pd.ents n new, link := l })) new (some nd0))
    (hb : ∀ j, j ≠ new → bytes s' j = bytes s j) (h0 : ∀ m j, (m, j) ∈ nd0.ents → ¬ Proper m) :
    Grown (fun q => q = ps ++ [n]) (fun _ => False) s s' ∧ Walk s'.fs.inodes rootIno (ps ++ [n]) new := by
  have T := h.inv.fs.tree
  have T' := h'.inv.fs.tree
  have hne : d ≠ new := by rintro rfl; rw [hnew] at hd; cases hd
  have hd' : s'.fs.inodes d = some { pd with ents := entPut pd.ents n new, link := l } := by
    rw [hi, upd_ne _ _ hne, upd_same]
  have hn' : s'.fs.inodes new = some nd0 := by rw [hi, upd_same]
  have wnew : Walk s'.fs.inodes rootIno (ps ++ [n]) new := by
    rw [hi]; exact walk_grow_new hd hnew (pd' := { pd with ents := entPut pd.ents n new, link := l }) hdd rfl hfree wd
  refine ⟨⟨?_, ?_, ?_, ?_⟩, wnew⟩
  · intro q k w
    rw [hi]; exact walk_grow hd hnew (pd' := { pd with ents := entPut pd.ents n new, link := l }) hdd rfl hfree w
  · intro q k hq w
    generalize hlen : q.length = len
    induction len generalizing q k with
    | zero =>
      have := List.eq_nil_of_length_eq_zero hlen; subst this
      cases w; exact .inl (.here _)
    | succ len ih =>
      rcases snoc_cases q with e | ⟨a, m, e⟩
      · subst e; cases w; exact .inl (.here _)
      · subst e
        obtain ⟨x, xd, w1, hx, hxd, hm⟩ := w.split
        have ha : ∀ m ∈ a, Proper m := fun z hz => hq z (by simp [hz])
        rcases ih a x ha w1 (by simpa using hlen) with g | g
        · obtain ⟨x0, hx0⟩ := Walk.exists T g ha (by obtain ⟨r, hr, -⟩ := T.root; exact ⟨r, hr⟩)
          have n1 : x ≠ new := by rintro rfl; rw [hnew] at hx0; cases hx0
          by_cases n2 : x = d
          · subst n2
            rw [hd'] at hx; cases hx
            rcases mem_entPut.1 hm with ⟨rfl, rfl⟩ | ⟨hm', -⟩
            · right
              rw [dir_path_unique T _ rfl g wd ha gps hd hdd]
            · exact .inl (g.snoc hd hdd hm')
          · rw [hi, upd_ne _ _ n1, upd_ne _ _ n2] at hx
            exact .inl (g.snoc hx hxd hm)
        · subst g
          have := walk_fun T' w1 wnew; subst this
          rw [hn'] at hx; cases hx
          exact absurd (hq m (by simp)) (h0 _ _ hm)
  · intro j nd hj hk _
    have h1 : j ≠ new := by rintro rfl; rw [hnew] at hj; cases hj
    have h2 : j ≠ d := by rintro rfl; rw [hd] at hj; cases hj; rw [hdd] at hk; cases hk
    exact ⟨by rw [hi, upd_ne _ _ h1, upd_ne _ _ h2, hj], hb j h1⟩
  · intro j nd hj hk
    have h1 : j ≠ new := by rintro rfl; rw [hnew] at hj; cases hj
    by_cases h2 : j = d
    · subst h2; rw [hd] at hj; cases hj; exact ⟨_, hd', hdd, rfl⟩
    · exact ⟨nd, by rw [hi, upd_ne _ _ h1, upd_ne _ _ h2, hj], hk, rfl⟩

/-! ## Paths -/

theorem path_render {cg : Cage} (h : CwdOk cg.cwd) {ns : List Name} (hg : ∀ n ∈ ns, Good n) : cg.path (render ns) = ns := by
  obtain ⟨dir, -, e⟩ := path_resolve h
  rw [e, isRelative_render]
  simpa using segs_render ns hg []

theorem normpath_path {cg : Cage} (h : CwdOk cg.cwd) (p : Str) : normpath cg.cwd p = render (cg.path p) ∧ ∀ n ∈ cg.path p, Good n := by
  obtain ⟨dir, hd, e⟩ := h
  obtain ⟨ns, h1, h2, -⟩ := normpath_canonical dir hd p
  have : cg.path p = ns := by rw [Cage.path, e, h2, names_render h1]
  rw [this, e]; exact ⟨h2, h1⟩

theorem render_ne (ns : List Name) : render ns ≠ [] := by
  unfold render
  split
  · simp
  · rename_i h
    cases ns with
    | nil => exact absurd rfl h
    | cons a b => simp

/-! ## The calls -/

theorem stat_found {s : State} (h : Reach s) {c : Nat} {cg : Cage} (hc : s.cages c = some cg) {p : Str} {i : Nat}
    (hi : Leads s cg p i) : ∃ nd, s.fs.inodes i = some nd ∧ (step s c (.stat p)).2 = { ret := .ok 0, stat := some (statOf i nd) } := by
  obtain ⟨par, hw, -⟩ := h.inv.walk_found hc hi
  obtain ⟨nd, hnd⟩ := h.inv.leads_exists hc hi
  exact ⟨nd, hnd, by simp only [step, hc, Fs.stat, hw, hnd]⟩

theorem stat_missing {s : State} (h : Reach s) {c : Nat} {cg : Cage} (hc : s.cages c = some cg) {p : Str}
    (hi : ∀ i, ¬ Leads s cg p i) : (step s c (.stat p)).2 = { ret := .err .ENOENT } := by
  obtain ⟨par, hw, -⟩ := h.inv.walk_missing hc hi
  simp only [step, hc, Fs.stat, hw]

/-- `mkdir` in a directory, of a name that is free. -/
theorem mkdir_free {s : State} (h : Reach s) {c : Nat} {cg : Cage} (hc : s.cages c = some cg) {p : Str} (hp : p ≠ [])
    {ps : List Name} {n : Name} {d : Nat} {pd : Inode} (hP : cg.path p = ps ++ [n]) (wd : Walk s.fs.inodes rootIno ps d)
    (hd : s.fs.inodes d = some pd) (hdd : pd.isDir) (hno : ∀ i, ¬ Leads s cg p i) :
    ∃ s' new nd, step s c (.mkdir p sIRWXA) = (s', .r (.ok 0)) ∧ Reach s' ∧ s'.cages = s.cages ∧
      Grown (fun q => q = ps ++ [n]) (fun _ => False) s s' ∧ Walk s'.fs.inodes rootIno (ps ++ [n]) new ∧
      s'.fs.inodes new = some nd ∧ nd.isDir ∧ nd.mode = 0o40777#32 := by
  obtain ⟨pl, r, hr, hat, hf⟩ := found_exists h hc p
  have gp := h.inv.gp hc p
  cases hf with
  | root e => rw [hP] at e; simp at e
  | object e w hl => exact absurd hl (hno _)
  | nowhere =>
    obtain ⟨ms, m, e, hx⟩ := hat
    rw [hP] at e
    obtain ⟨rfl, -⟩ := List.append_inj' e rfl
    exact absurd ⟨pd, hd, isDir_iff.1 hdd⟩ (hx d wd)
  | free e w hpd hd1 hl hfree hg =>
    rename_i d1 ms m pd1
    rw [hP] at e
    obtain ⟨rfl, hmm⟩ := List.append_inj' e rfl
    simp only [List.cons.injEq, and_true] at hmm
    subst hmm
    have := walk_fun h.inv.fs.tree w wd; subst this
    rw [hd] at hpd; cases hpd
    obtain ⟨fs', g0, g1, g2, g3, g4, -⟩ := create_eq n (fun new =>
          { kind := .dir, mode := sIFDIR ||| sIRWXA, size := 0, link := 3, ref := 0, ents := initEnts new d1 }) hd hdd
    have hm : saneMode sIRWXA = true := by decide
    obtain ⟨n1, -⟩ := h.inv.fs.next_none
    have hst : step s c (.mkdir p sIRWXA) = ({ s with fs := fs' }, .r (.ok 0)) := by
      rw [hP] at hr
      simp only [step, hc, nonEmpty, if_neg hp, State.onFs, Fs.mkdir, hP, hr, hm, Bool.not_true, Bool.false_eq_true, if_false,
        getLast_snoc, g0]
    have hR : Reach ({ s with fs := fs' } : State) := by
      have := Reach.step c (.mkdir p sIRWXA) h (by simp only [Tame, hc]) (by rw [hst]; simp [Out.r])
      rwa [hst] at this
    obtain ⟨k1, k2⟩ := grown_make h hR (l := pd.link + 1) w (fun z hz => Good.proper (gp z (by rw [hP]; simp [hz]))) hd hdd hfree n1 g1
      (fun j _ => by simp only [bytes, g4]) (by
        intro z j hz
        simp only [initEnts, List.mem_cons, Prod.mk.injEq, List.not_mem_nil, or_false] at hz
        rcases hz with ⟨rfl, -⟩ | ⟨rfl, -⟩ <;> decide)
    refine ⟨_, s.fs.next, { kind := .dir, mode := sIFDIR ||| sIRWXA, size := 0, link := 3, ref := 0, ents := initEnts s.fs.next d1 },
      hst, hR, rfl, k1, k2, by simp only [g1, upd_same], rfl, ?_⟩
    show sIFDIR ||| sIRWXA = _; decide

/-- `open` for writing with O_CREAT|O_TRUNC, of a name that is free in a directory. -/
theorem open_free {s : State} (h : Reach s) {c : Nat} {cg : Cage} (hc : s.cages c = some cg) {p : Str} (hp : p ≠ [])
    {ps : List Name} {n : Name} {d : Nat} {pd : Inode} (hP : cg.path p = ps ++ [n]) (wd : Walk s.fs.inodes rootIno ps d)
    (hd : s.fs.inodes d = some pd) (hdd : pd.isDir) (hno : ∀ i, ¬ Leads s cg p i) {flags : BitVec 32}
    (hcr : flags &&& 0o100#32 ≠ 0#32) (hchr : flags &&& 0o20000#32 ≠ 0o20000#32) {fd : Nat} (hfd : nextFd cg.fds 0 = some fd) :
    ∃ s' new, step s c (.openP p flags sIRWXA) = (s', .r (.ok fd)) ∧ Reach s' ∧
      s'.cages = upd s.cages c (some (cg.withSlot fd (some (.file new 0 (flags &&& 0o2000003#32))))) ∧
      Grown (fun q => q = ps ++ [n]) (fun _ => False) s s' ∧ Walk s'.fs.inodes rootIno (ps ++ [n]) new ∧
      s.fs.inodes new = none ∧ s'.fs.inodes new = some (newFile sIRWXA) ∧ bytes s' new = [] := by
  obtain ⟨pl, r, hr, hat, hf⟩ := found_exists h hc p
  have gp := h.inv.gp hc p
  cases hf with
  | root e => rw [hP] at e; simp at e
  | object e w hl => exact absurd hl (hno _)
  | nowhere =>
    obtain ⟨ms, m, e, hx⟩ := hat
    rw [hP] at e
    obtain ⟨rfl, -⟩ := List.append_inj' e rfl
    exact absurd ⟨pd, hd, isDir_iff.1 hdd⟩ (hx d wd)
  | free e w hpd hd1 hl hfree hg =>
    rename_i d1 ms m pd1
    rw [hP] at e
    obtain ⟨rfl, hmm⟩ := List.append_inj' e rfl
    simp only [List.cons.injEq, and_true] at hmm
    subst hmm
    have := walk_fun h.inv.fs.tree w wd; subst this
    rw [hd] at hpd; cases hpd
    obtain ⟨fs', g0, g1, g2, g3, g4, -⟩ := create_eq n (fun _ => newFile sIRWXA) hd hdd
    have hm : saneMode sIRWXA = true := by decide
    obtain ⟨n1, n2, n3, -⟩ := h.inv.fs.next_none
    have hcr' : ¬ flags &&& oCREAT = 0 := hcr
    have hchr' : ¬ flags &&& sIFCHR = sIFCHR := hchr
    have hnd : newDesc s.fs.next 0 flags = .file s.fs.next 0 (flags &&& 0o2000003#32) := by
      simp only [newDesc, ite_self]; rfl
    have hst : step s c (.openP p flags sIRWXA) =
        (({ s with fs := fs'.openObj s.fs.next 0 } : State).setFd c fd (some (newDesc s.fs.next 0 flags)), .r (.ok fd)) := by
      rw [hP] at hr
      simp only [step, hc, openSys, if_neg hp, hfd, hP, Fs.openP, hr, hcr', hchr', hm, Bool.not_true, Bool.false_eq_true, if_false,
        getLast_snoc, g0]
    have hR := Reach.step c (.openP p flags sIRWXA) h (by simp only [Tame, hc]) (by rw [hst]; simp [Out.r])
    rw [hst] at hR
    generalize hs' : (({ s with fs := fs'.openObj s.fs.next 0 } : State).setFd c fd (some (newDesc s.fs.next 0 flags))) = s' at hst hR
    have hfs : s'.fs = fs'.openObj s.fs.next 0 := by rw [← hs', setFd_fs]
    have hino : s'.fs.inodes = upd (upd s.fs.inodes d1 (some { pd with ents := entPut pd.ents n s.fs.next, link := pd.link + 1 }))
        s.fs.next (some (newFile sIRWXA)) := by
      rw [hfs]; simp only [Fs.openObj, g3, n2]; exact g1
    have hdk : s'.fs.disk = upd s.fs.disk s.fs.next (some []) := by
      rw [hfs]; simp only [Fs.openObj, g3, g4, n2, n3]; rfl
    obtain ⟨k1, k2⟩ := grown_make h hR (l := pd.link + 1) w (fun z hz => Good.proper (gp z (by rw [hP]; simp [hz]))) hd hdd hfree n1 hino
      (fun j hj => by simp only [bytes, hdk, upd_ne _ _ hj]) (by intro z j hz; simp [newFile] at hz)
    refine ⟨s', s.fs.next, hst, hR, ?_, k1, k2, n1, by simp only [hino, upd_same], by simp only [bytes, hdk, upd_same]; rfl⟩
    rw [← hs', setFd_at (s := { s with fs := fs'.openObj s.fs.next 0 }) hc, hnd]

/-- What a write through a descriptor of a file does to the tables. -/
theorem write_cages {s : State} (h : Reach s) {c fd i pos size : Nat} {f : BitVec 32} (data : List UInt8) {cg : Cage}
    (hc : s.cages c = some cg) (hf1 : fd < 1024) (hs : cg.fds fd = some (.file i pos f)) (hf : IsFile s i size)
    (hm : f &&& 3#32 ≠ 0#32) :
    (step s c (.write fd data)).1.cages = upd s.cages c (some (cg.withSlot fd (some (.file i (pos + data.length) f)))) := by
  have ho : OpenOn s c fd i pos f := ⟨hf1, cg, hc, hs⟩
  obtain ⟨nd, h1, h2, h3⟩ := id hf
  obtain ⟨fs', e0, e1⟩ := writeIno_written h.inv ho hf h1 pos data
  have hg : getFd cg.fds fd = some (some (.file i pos f)) := by rw [getFd_nat hf1, hs]
  have hw : isRdonly f = false := by
    unfold isRdonly oRDWRFLAGS; simpa using hm
  simp only [step, hc, Kernel.write, hg, hw, Bool.false_eq_true, if_false, h1, h2, e0, Int.toNat_natCast]
  exact setFd_at (s := { s with fs := fs' }) hc

/-- Closing a descriptor of a file that has a name. -/
theorem close_named {s : State} (h : Reach s) {c fd i pos : Nat} {f : BitVec 32} {cg : Cage} {nd : Inode}
    (hc : s.cages c = some cg) (hf1 : fd < 1024) (hs : cg.fds fd = some (.file i pos f)) (hnd : s.fs.inodes i = some nd)
    (hk : nd.kind = .file) (hl : nd.link ≠ 0) :
    ∃ s', step s c (.close fd) = (s', .r (.ok 0)) ∧ Reach s' ∧ s'.cages = upd s.cages c (some (cg.withSlot fd none)) ∧
      s'.fs.inodes = upd s.fs.inodes i (some { nd with ref := nd.ref - 1 }) ∧ s'.fs.disk = s.fs.disk := by
  have ho : OpenOn s c fd i pos f := ⟨hf1, cg, hc, hs⟩
  have hfo := h.inv.fobj ho ⟨nd, hnd, hk, rfl⟩
  obtain ⟨k1, k2⟩ := close_open h hc hf1 hs
  obtain ⟨s', e, -, -⟩ := h.inv.closeSlot hc hs
  have hst : step s c (.close fd) = (s', .r (.ok 0)) := by
    simp only [step, hc, Kernel.close, getFd_nat hf1, hs, Int.toNat_natCast, e]
  have hfs : s'.fs = (s.fs.closeIno i).1 := by
    simp only [State.closeSlot, State.drop] at e
    split at e
    · rename_i s1 v e1
      simp only [Prod.mk.injEq] at e1 e
      rw [← e.1, setFd_fs, ← e1.1]
    · rename_i s1 r e2 e1
      simp only [Prod.mk.injEq] at e1 e
      rw [← e.1, ← e1.1]
  refine ⟨s', hst, ?_, ?_, ?_⟩
  · have := Reach.step c (.close fd) h (by simp only [Tame, hc]) (by rw [k1]; simp)
    rwa [hst] at this
  · rw [hst] at k2; exact k2
  · rw [hfs]
    simp only [Fs.closeIno, hnd, hk]
    by_cases hr1 : nd.ref - 1 = 0
    · simp only [hr1, if_true, hfo, hl, if_false, Fs.set]
      exact ⟨trivial, trivial⟩
    · simp only [hr1, if_false, Fs.set]
      exact ⟨trivial, trivial⟩

/-! ## The loop over the ancestors -/

theorem ancestors_cons {pre : List Name} (hg : ∀ n ∈ pre, Good n) (n : Name) (ns : List Name) :
    ancestors (render pre) (n :: ns) = render pre :: ancestors (render (pre ++ [n])) ns := by
  rw [ancestors, push_render pre hg]

theorem mkdir_ok_free {s : State} (h : Reach s) {c : Nat} {cg : Cage} (hc : s.cages c = some cg) {p : Str} (hp : p ≠ [])
    {v : Int} (hok : (step s c (.mkdir p sIRWXA)).2.ret = .ok v) :
    ∃ ps n d pd, cg.path p = ps ++ [n] ∧ Walk s.fs.inodes rootIno ps d ∧ s.fs.inodes d = some pd ∧ pd.isDir ∧ ∀ i, ¬ Leads s cg p i := by
  obtain ⟨pl, r, hr, hat, hf⟩ := found_exists h hc p
  rw [mkdir_answer h hc hp hat] at hok
  cases hf with
  | root => cases hok
  | object => cases hok
  | nowhere => cases hok
  | free e w hpd hd hl hfree hg =>
    refine ⟨_, _, _, _, e, w, hpd, hd, ?_⟩
    intro i hi
    obtain ⟨par, hw, -⟩ := h.inv.walk_found hc hi
    rw [hw] at hr; cases hr

theorem mkdir_not_panic {s : State} (h : Reach s) {c : Nat} {cg : Cage} (hc : s.cages c = some cg) {p : Str} (hp : p ≠ []) :
    (∃ v, (step s c (.mkdir p sIRWXA)).2.ret = .ok v) ∨ ∃ e, step s c (.mkdir p sIRWXA) = (s, .r (.err e)) := by
  obtain ⟨pl, r, hr, hat, hf⟩ := found_exists h hc p
  have hm : saneMode sIRWXA = true := by decide
  cases hf with
  | root => right; exact ⟨_, by simp only [step, hc, nonEmpty, if_neg hp, State.onFs, Fs.mkdir, hr]; rfl⟩
  | object => right; exact ⟨_, by simp only [step, hc, nonEmpty, if_neg hp, State.onFs, Fs.mkdir, hr]; rfl⟩
  | nowhere => right; exact ⟨_, by simp only [step, hc, nonEmpty, if_neg hp, State.onFs, Fs.mkdir, hr]; rfl⟩
  | free e w hpd hd hl hfree hg =>
    left
    obtain ⟨s', new, nd, hst, -⟩ := mkdir_free h hc hp e w hpd hd (by
      intro i hi
      obtain ⟨par, hw, -⟩ := h.inv.walk_found hc hi
      rw [hw] at hr; cases hr)
    exact ⟨0, by rw [hst]; rfl⟩

/-- What the loop leaves: nothing but new directories, and, if it did not give up, a directory at every ancestor. -/
theorem dirs_run {c : Nat} {create : Bool} {cg : Cage} : ∀ (ns pre : List Name) (s : State), Reach s → s.cages c = some cg →
    (∀ n ∈ pre ++ ns, Good n) →
    match makeDirs c create (ancestors (render pre) ns) s with
    | .ok s' => Reach s' ∧ s'.cages = s.cages ∧ Grown (fun q => Above q (pre ++ ns)) (fun _ => False) s s' ∧
      ∀ q, pre <+: q → Above q (pre ++ ns) → ∃ d nd, Walk s'.fs.inodes rootIno q d ∧ s'.fs.inodes d = some nd ∧
        modeIsDir nd.mode = true ∧ (Walk s.fs.inodes rootIno q d ∨ nd.isDir = true)
    | .stop s' => Reach s' ∧ s'.cages = s.cages ∧ Grown (fun q => Above q (pre ++ ns)) (fun _ => False) s s'
    | .abort => False := by
  intro ns
  induction ns with
  | nil =>
    intro pre s h hc hg
    simp only [ancestors, makeDirs]
    refine ⟨h, trivial, .refl _ _ _, ?_⟩
    rintro q ⟨t, rfl⟩ ⟨n, t', e⟩
    have := congrArg List.length e
    simp at this
  | cons n ns ih =>
    intro pre s h hc hg
    have hcw := (h.inv.cage c cg hc).2.2
    have gpre : ∀ m ∈ pre, Good m := fun m hm => hg m (by simp [hm])
    have hpath := path_render hcw gpre
    rw [ancestors_cons gpre, show pre ++ n :: ns = (pre ++ [n]) ++ ns by simp] at *
    have hq : ∀ q, pre <+: q → Above q (pre ++ [n] ++ ns) → q = pre ∨ pre ++ [n] <+: q := by
      rintro q ⟨t, rfl⟩ ⟨m, t', e⟩
      cases t with
      | nil => left; simp
      | cons a t =>
        right
        have : a = n := by
          simp only [List.append_assoc, List.cons_append, List.nil_append, List.append_cancel_left_eq, List.cons.injEq] at e
          exact e.1.symm
        subst this
        exact ⟨t, by simp⟩
    have hab : Above pre (pre ++ [n] ++ ns) := ⟨n, ns, by simp⟩
    simp only [makeDirs]
    by_cases hex : ∃ i, Leads s cg (render pre) i
    · obtain ⟨i, hi⟩ := hex
      obtain ⟨nd, hnd, hst⟩ := stat_found h hc hi
      have wi : Walk s.fs.inodes rootIno pre i := by have := hi; unfold Leads at this; rwa [hpath] at this
      simp only [hst, statOf]
      by_cases hm : modeIsDir nd.mode = true
      · simp only [hm, if_true]
        have := ih (pre ++ [n]) s h hc hg
        split at this <;> rename_i s' hs'
        · obtain ⟨r1, r2, r3, r4⟩ := this
          refine ⟨r1, r2, r3, ?_⟩
          intro q hq1 hq2
          rcases hq q hq1 hq2 with rfl | g
          · cases hd : nd.isDir with
            | true =>
              obtain ⟨nd', g1, g2, g3⟩ := r3.dir i nd hnd hd
              exact ⟨i, nd', r3.keeps _ _ wi, g1, g3 ▸ hm, .inl wi⟩
            | false =>
              exact ⟨i, nd, r3.keeps _ _ wi, (r3.node i nd hnd hd (by simp)).1, hm, .inl wi⟩
          · exact r4 q g hq2
        · exact this
        · exact this
      · simp only [hm, Bool.false_eq_true, if_false]
        exact ⟨h, trivial, .refl _ _ _⟩
    · have hno : ∀ i, ¬ Leads s cg (render pre) i := fun i hi => hex ⟨i, hi⟩
      simp only [stat_missing h hc hno, ne_eq, not_true_eq_false, if_false]
      cases create with
      | false => simp only [Bool.false_eq_true, if_false]; exact ⟨h, trivial, .refl _ _ _⟩
      | true =>
        simp only [if_true]
        rcases mkdir_not_panic h hc (render_ne pre) with ⟨v, hok⟩ | ⟨e, he⟩
        · obtain ⟨ps, m, d, pd, e1, e2, e3, e4, -⟩ := mkdir_ok_free h hc (render_ne pre) hok
          obtain ⟨s1, new, nd, hst, hR, hcg, hG, wn, hn, hnd, hmode⟩ := mkdir_free h hc (render_ne pre) e1 e2 e3 e4 hno
          rw [← e1, hpath] at hG wn
          have hG' : Grown (fun q => Above q (pre ++ [n] ++ ns)) (fun _ => False) s s1 :=
            hG.mono (by rintro q rfl; exact hab) (fun _ g => g)
          simp only [hst, Out.r]
          have := ih (pre ++ [n]) s1 hR (by rw [hcg]; exact hc) hg
          split at this <;> rename_i s' hs'
          · simp only [not_true_eq_false, if_false, hs']
            obtain ⟨r1, r2, r3, r4⟩ := this
            refine ⟨r1, r2.trans hcg, hG'.trans r3, ?_⟩
            intro q hq1 hq2
            rcases hq q hq1 hq2 with rfl | g
            · obtain ⟨nd', g1, g2, g3⟩ := r3.dir new nd hn hnd
              exact ⟨new, nd', r3.keeps _ _ wn, g1, by rw [g3, hmode]; decide, .inr g2⟩
            · obtain ⟨d', nd', g1, g2, g3, g4⟩ := r4 q g hq2
              refine ⟨d', nd', g1, g2, g3, ?_⟩
              rcases g4 with g4 | g4
              · have hp2 : ∀ m ∈ q, Proper m := by
                  intro m hm
                  obtain ⟨a, b, e⟩ := hq2
                  exact Good.proper (hg m (by rw [e]; simp [hm]))
                rcases hG.fresh q d' hp2 g4 with g5 | g5
                · exact .inl g5
                · subst g5
                  obtain ⟨t, ht⟩ := g
                  have := congrArg List.length ht
                  simp at this
              · exact .inr g4
          · simp only [not_true_eq_false, if_false, hs']
            exact ⟨this.1, this.2.1.trans hcg, hG'.trans this.2.2⟩
          · exact this.elim
        · simp only [he, Out.r]; exact ⟨h, trivial, .refl _ _ _⟩

theorem dirs_ok {c : Nat} {create : Bool} {cg : Cage} : ∀ (ns pre : List Name) (s : State), Reach s → s.cages c = some cg →
    (∀ n ∈ pre ++ ns, Good n) → Clear s (pre ++ ns) →
    (create = true ∨ ∀ q, Above q (pre ++ ns) → ∃ d, Walk s.fs.inodes rootIno q d) →
    (pre = [] ∨ ∃ ps n d nd, pre = ps ++ [n] ∧ Walk s.fs.inodes rootIno ps d ∧ s.fs.inodes d = some nd ∧ nd.isDir = true) →
    ∃ s', makeDirs c create (ancestors (render pre) ns) s = .ok s' := by
  intro ns
  induction ns with
  | nil => intro pre s _ _ _ _ _ _; exact ⟨s, rfl⟩
  | cons n ns ih =>
    intro pre s h hc hg hcl hcr hpar
    have hcw := (h.inv.cage c cg hc).2.2
    have gpre : ∀ m ∈ pre, Good m := fun m hm => hg m (by simp [hm])
    have hpath := path_render hcw gpre
    rw [ancestors_cons gpre]
    rw [show pre ++ n :: ns = (pre ++ [n]) ++ ns by simp] at hg hcl hcr
    have hab : Above pre (pre ++ [n] ++ ns) := ⟨n, ns, by simp⟩
    simp only [makeDirs]
    by_cases hex : ∃ i, Leads s cg (render pre) i
    · obtain ⟨i, hi⟩ := hex
      obtain ⟨nd, hnd, hst⟩ := stat_found h hc hi
      have wi : Walk s.fs.inodes rootIno pre i := by have := hi; unfold Leads at this; rwa [hpath] at this
      obtain ⟨nd', hnd', hd, hm⟩ := hcl pre hab i wi
      rw [hnd] at hnd'; cases hnd'
      simp only [hst, statOf, hm, if_true]
      exact ih (pre ++ [n]) s h hc hg hcl hcr (.inr ⟨pre, n, i, nd, rfl, wi, hnd, hd⟩)
    · have hno : ∀ i, ¬ Leads s cg (render pre) i := fun i hi => hex ⟨i, hi⟩
      simp only [stat_missing h hc hno, ne_eq, not_true_eq_false, if_false]
      have hct : create = true := by
        rcases hcr with g | g
        · exact g
        · obtain ⟨d, hd⟩ := g pre hab
          exact absurd (show Leads s cg (render pre) d by unfold Leads; rw [hpath]; exact hd) (hno d)
      subst hct
      simp only [if_true]
      rcases hpar with rfl | ⟨ps, m, d, pd, rfl, wd, hd, hdd⟩
      · exact absurd (show Leads s cg (render []) rootIno by unfold Leads; rw [hpath]; exact .here _) (hno _)
      obtain ⟨s1, new, nd, hst, hR, hcg, hG, wn, hn, hnd, hmode⟩ := mkdir_free h hc (render_ne _) hpath wd hd hdd hno
      simp only [hst, Out.r, not_true_eq_false, if_false]
      refine ih (ps ++ [m] ++ [n]) s1 hR (by rw [hcg]; exact hc) hg ?_ (.inl rfl) (.inr ⟨_, n, new, nd, rfl, wn, hn, hnd⟩)
      intro q hq k wk
      have hp2 : ∀ m ∈ q, Proper m := by
        intro z hz
        obtain ⟨a, b, e⟩ := hq
        exact Good.proper (hg z (by rw [e]; simp [hz]))
      rcases hG.fresh q k hp2 wk with g | g
      · obtain ⟨kd, k1, k2, k3⟩ := hcl q hq k g
        obtain ⟨kd', j1, j2, j3⟩ := hG.dir k kd k1 k2
        exact ⟨kd', j1, j2, j3 ▸ k3⟩
      · subst g
        have := walk_fun hR.inv.fs.tree wk wn; subst this
        exact ⟨nd, hn, hnd, by rw [hmode]; decide⟩

/-! ## The writes -/

theorem chunks_flat (n : Nat) (hn : 0 < n) : ∀ (k : Nat) (l : List UInt8), l.length ≤ k → (chunks n k l).flatten = l ∧
    ∀ b ∈ chunks n k l, b.length ≤ n := by
  intro k
  induction k with
  | zero => intro l hl; have := List.eq_nil_of_length_eq_zero (Nat.le_zero.1 hl); subst this; simp [chunks]
  | succ k ih =>
    intro l hl
    cases l with
    | nil => simp [chunks]
    | cons b bs =>
      obtain ⟨g1, g2⟩ := ih ((b :: bs).drop n) (by simp only [List.length_drop, List.length_cons] at hl ⊢; omega)
      refine ⟨?_, ?_⟩
      · rw [chunks, List.flatten_cons, g1, List.take_append_drop]
      · intro x hx
        rw [chunks, List.mem_cons] at hx
        rcases hx with rfl | hx
        · rw [List.length_take]; exact Nat.min_le_left ..
        · exact g2 x hx

theorem written_end {old data new : List UInt8} (h : Written old old.length data new) : new = old ++ data := by
  obtain ⟨w1, w2, w3, w4⟩ := h
  apply List.ext_getElem?
  intro k
  rw [List.getElem?_append]
  split
  · rename_i hlt; exact w2 k (.inl hlt) hlt
  · rename_i hge
    by_cases hk : k - old.length < data.length
    · have := w1 _ hk
      rwa [show old.length + (k - old.length) = k by omega] at this
    · rw [List.getElem?_eq_none (l := data) (by omega)]
      exact List.getElem?_eq_none (by omega)

theorem writes_run {c fd i : Nat} {f : BitVec 32} (hf1 : fd < 1024) (hm : f &&& 3#32 ≠ 0#32) : ∀ (bs : List (List UInt8)) (s : State)
    (cg : Cage) (nd : Inode), Reach s → (∀ b ∈ bs, b.length ≤ maxRw) → s.cages c = some cg →
    cg.fds fd = some (.file i (bytes s i).length f) → s.fs.inodes i = some nd → nd.kind = .file →
    ∃ s', writeAll c fd bs s = some s' ∧ Reach s' ∧ bytes s' i = bytes s i ++ bs.flatten ∧
      s'.cages = upd s.cages c (some (cg.withSlot fd (some (.file i (bytes s' i).length f)))) ∧
      s'.fs.inodes = upd s.fs.inodes i (some { nd with size := (bytes s' i).length }) ∧
      ∀ j, j ≠ i → bytes s' j = bytes s j := by
  intro bs
  induction bs with
  | nil =>
    intro s cg nd h _ hc hs hnd hk
    refine ⟨s, rfl, h, by simp, ?_, ?_, fun _ _ => rfl⟩
    · have : cg.withSlot fd (some (.file i (bytes s i).length f)) = cg := by
        unfold Cage.withSlot; rw [← hs, upd_self]
      rw [this, ← hc, upd_self]
    · have := (h.inv.content ⟨nd, hnd, hk, rfl⟩).2
      have e : ({ nd with size := (bytes s i).length } : Inode) = nd := by
        rw [this]
      rw [e, ← hnd, upd_self]
  | cons b bs ih =>
    intro s cg nd h hle hc hs hnd hk
    have ho : OpenOn s c fd i (bytes s i).length f := ⟨hf1, cg, hc, hs⟩
    have hfile : IsFile s i nd.size := ⟨nd, hnd, hk, rfl⟩
    have hlen : (bytes s i).length = nd.size := (h.inv.content hfile).2
    obtain ⟨w1, w2, w3, w4⟩ := write_writes h (data := b) ho hfile hm
    have hcg := write_cages h b hc hf1 hs hfile hm
    have hR := Reach.step c (.write fd b) h (by simp only [Tame, hc]) (by rw [w4]; simp)
    have hb : toI32 b.length = (b.length : Int) := by
      have := hle b (by simp)
      have hm : maxRw < 2147483648 := by unfold maxRw; decide
      exact toI32_small (by omega) (by omega)
    rw [hb] at w4
    generalize hst : step s c (.write fd b) = r at w1 w2 w3 w4 hcg hR
    have w1 := written_end w1
    have hl1 : (bytes r.1 i).length = (bytes s i).length + b.length := by rw [w1]; simp
    obtain ⟨s', e1, e2, e3, e4, e5, e6⟩ := ih r.1 _ _ hR (fun x hx => hle x (by simp [hx])) (by rw [hcg, upd_same])
      (by simp only [Cage.withSlot, upd_same, hl1]) (w2.2 nd hnd) hk
    refine ⟨s', ?_, e2, ?_, ?_, ?_, ?_⟩
    · simp only [writeAll, hst, w4, if_true, e1]
    · rw [e3, w1]; simp
    · rw [e4, hcg, upd_upd]; simp only [Cage.withSlot, upd_upd]
    · rw [e5]
      funext j
      by_cases hj : j = i
      · subst hj; rw [upd_same, upd_same]
      · rw [upd_ne _ _ hj, upd_ne _ _ hj, (w2.1 j hj).2]
    · intro j hj; rw [e6 j hj, (w2.1 j hj).1]

end Verif.HostCopy
