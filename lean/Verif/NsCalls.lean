import Verif.NsProps

/-!
# Name space calls, one by one: C15, C19, C24, C46, C51
-/

namespace Verif.Kernel
open Verif.Path Verif.Fs
open Verif.Pipe (Pipe End)

set_option linter.unusedSimpArgs false

/-! ## Specification -/

/-- Directory `d` has the entry `n ↦ j`. -/
def Entry (s : State) (d : Nat) (n : Name) (j : Nat) : Prop := (n, j) ∈ entries s d

/-- A directory with no entries but `.` and `..`. -/
def Empty (s : State) (d : Nat) : Prop := ∀ n j, Entry s d n j → isDots n = true

/-- Everything `stat` shows of an inode but its link count, and its content. -/
def SameObj (s s' : State) (i : Nat) : Prop :=
  (∀ nd, s.fs.inodes i = some nd → ∃ nd', s'.fs.inodes i = some nd' ∧ nd'.kind = nd.kind ∧ nd'.mode = nd.mode ∧
    nd'.size = nd.size) ∧ bytes s' i = bytes s i

/-! ## Lemmas -/

theorem entry_iff {s : State} {d : Nat} {nd : Inode} (hd : s.fs.inodes d = some nd) {n : Name} {j : Nat} :
    Entry s d n j ↔ (n, j) ∈ nd.ents := by
  simp only [Entry, entries, hd]

theorem walk_grow {ino : Nat → Option Inode} {par new : Nat} {pd pd' nd0 : Inode} {n : Name}
    (hpar : ino par = some pd) (hnew : ino new = none) (hdir : pd'.isDir)
    (hents : pd'.ents = entPut pd.ents n new) (hfree : entGet pd.ents n = none) {d i : Nat} {ns : List Name}
    (hw : Walk ino d ns i) : Walk (upd (upd ino par (some pd')) new (some nd0)) d ns i := by
  apply hw.congr
  intro d nd hd hdir'
  have h1 : d ≠ new := by rintro rfl; rw [hnew] at hd; cases hd
  rw [upd_ne _ _ h1]
  by_cases h2 : d = par
  · subst h2
    rw [hpar] at hd; cases hd
    refine ⟨pd', upd_same .., hdir, ?_⟩
    rintro ⟨m, j⟩ hm
    rw [hents, mem_entPut]
    exact .inr ⟨hm, by rintro rfl; exact absurd hm (entGet_none.1 hfree j)⟩
  · rw [upd_ne _ _ h2]; exact ⟨nd, hd, hdir', fun _ h => h⟩

theorem walk_grow_new {ino : Nat → Option Inode} {par new : Nat} {pd pd' nd0 : Inode} {n : Name}
    (hpar : ino par = some pd) (hnew : ino new = none) (hdir : pd'.isDir)
    (hents : pd'.ents = entPut pd.ents n new) (hfree : entGet pd.ents n = none) {d : Nat} {ns : List Name}
    (hw : Walk ino d ns par) : Walk (upd (upd ino par (some pd')) new (some nd0)) d (ns ++ [n]) new := by
  have hne : par ≠ new := by rintro rfl; rw [hnew] at hpar; cases hpar
  refine (walk_grow hpar hnew hdir hents hfree hw).snoc (nd := pd') (by rw [upd_ne _ _ hne, upd_same]) hdir ?_
  rw [hents, mem_entPut]; exact .inl ⟨rfl, rfl⟩

/-! ## C19 -/

/-- C19.  A name that exists and O_CREAT|O_EXCL: EEXIST, and nothing changes. -/
theorem open_excl_existing {s : State} (h : Reach s) {c : Nat} {cg : Cage} (hc : s.cages c = some cg) {p : Str} {i : Nat}
    (hp : p ≠ []) (hi : Leads s cg p i) (hfd : ∃ fd, fd < 1024 ∧ cg.fds fd = none) {flags mode : BitVec 32}
    (hf : flags &&& 0o300#32 = 0o300#32) :
    step s c (.openP p flags mode) = (s, { ret := .err .EEXIST }) := by
  obtain ⟨par, hw, -⟩ := h.inv.walk_found hc hi
  obtain ⟨fd, h1, h2⟩ := hfd
  simp only [step, hc, openSys, if_neg hp]
  cases hn : nextFd cg.fds 0 with
  | none => exact absurd h2 (nextFd_none hn fd (Nat.zero_le _) h1)
  | some fd' =>
    have hf' : flags &&& (oCREAT ||| oEXCL) = oCREAT ||| oEXCL := hf
    simp only [Fs.openP, hw, Fs.openExisting, if_pos hf', Out.r]

/-- C19.  If the name is missing, a successful open creates an empty regular file with one link and the given
permissions under that name, and opens it; every path that led somewhere still leads there.  In particular
O_CREAT|O_EXCL succeeds only so, by `open_excl_existing`. -/
theorem open_creates {s : State} (h : Reach s) {c : Nat} {cg : Cage} (hc : s.cages c = some cg) {p : Str} {v : Int}
    {flags mode : BitVec 32} (hno : ∀ i, ¬ Leads s cg p i)
    (hok : (step s c (.openP p flags mode)).2.ret = .ok v) :
    let s' := (step s c (.openP p flags mode)).1
    flags &&& 0o100#32 ≠ 0#32 ∧
    ∃ i fd, s.fs.inodes i = none ∧ v = (fd : Nat) ∧ Leads s' cg p i ∧ OpenOn s' c fd i 0 (flags &&& 0o2000003#32) ∧
      s'.fs.inodes i = some { kind := .file, mode := 0o100000#32 ||| mode, size := 0, link := 1, ref := 1, ents := [] } ∧
      bytes s' i = [] ∧ numNames s' i = 1 ∧ (∀ q j, Leads s cg q j → Leads s' cg q j) := by
  have hpanic : (step s c (.openP p flags mode)).2.ret ≠ .panic := by rw [hok]; simp
  have hR : Reach (step s c (.openP p flags mode)).1 := .step c _ h (by simp only [Tame, hc]) hpanic
  generalize hst : step s c (.openP p flags mode) = r at *
  simp only [step, hc, openSys] at hst
  split at hst
  · subst hst; cases hok
  split at hst
  · subst hst; cases hok
  rename_i fd hfd
  obtain ⟨par, hw, hlook⟩ := h.inv.walk_missing hc hno
  cases hlook with
  | gone => simp only [Fs.openP, hw] at hst; subst hst; cases hok
  | free heq w hpar hd hl hf hg hno' =>
    rename_i par ps n pd
    obtain ⟨fs', g0, g1, g2, g3, g4, -⟩ := create_eq n (fun _ => newFile mode) hpar hd
    obtain ⟨n1, n2, n3, -⟩ := h.inv.fs.next_none
    rw [heq] at hw hst
    simp only [Fs.openP, hw, getLast_snoc, g0] at hst
    by_cases hcr : flags &&& oCREAT = 0
    · simp only [hcr, if_true] at hst; subst hst; cases hok
    by_cases hchr : flags &&& sIFCHR = sIFCHR
    · simp only [hcr, hchr, if_true, if_false] at hst; subst hst; cases hok
    cases hsm : saneMode mode with
    | false => simp only [hcr, hchr, hsm, Bool.not_false, if_true, if_false] at hst; subst hst; cases hok
    | true =>
      simp only [hcr, hchr, hsm, Bool.not_true, if_true, if_false, Bool.false_eq_true] at hst
      refine ⟨hcr, s.fs.next, fd, n1, ?_⟩
      have hfs : r.1.fs = fs'.openObj s.fs.next 0 := by subst hst; simp only [setFd_fs]
      have hino : r.1.fs.inodes = upd (upd s.fs.inodes par (some { pd with ents := entPut pd.ents n s.fs.next, link := pd.link + 1 }))
          s.fs.next (some (newFile mode)) := by
        rw [hfs]; simp only [Fs.openObj, g3, n2]; exact g1
      have hcg : r.1.cages = upd s.cages c (some (cg.withSlot fd (some (newDesc s.fs.next 0 flags)))) := by
        subst hst; exact setFd_at (s := { s with fs := fs'.openObj s.fs.next 0 }) hc
      have hi : r.1.fs.inodes s.fs.next = some (newFile mode) := by rw [hino, upd_same]
      refine ⟨?_, ?_, ?_, hi, ?_, ?_, ?_⟩
      · subst hst; simp only [Out.r, Ret.ok.injEq] at hok; exact hok.symm
      · unfold Leads; rw [hino, heq]
        exact walk_grow_new hpar n1 (pd' := { pd with ents := entPut pd.ents n s.fs.next, link := pd.link + 1 }) hd rfl hf w
      · refine ⟨(nextFd_some hfd).2.1, _, by rw [hcg, upd_same], ?_⟩
        simp only [Cage.withSlot, upd_same, newDesc, ite_self]
        rfl
      · simp only [bytes, hfs, Fs.openObj, g3, g4, n2, n3, upd_same]; rfl
      · rw [← nlink_is_names hR hi (by simp [newFile])]; rfl
      · intro q j hq; unfold Leads; rw [hino]
        exact walk_grow hpar n1 (pd' := { pd with ents := entPut pd.ents n s.fs.next, link := pd.link + 1 }) hd rfl hf hq

/-- C19.  Without O_CREAT a missing name is ENOENT (or the descriptor table is full), and the state is as before. -/
theorem open_missing {s : State} (h : Reach s) {c : Nat} {cg : Cage} (hc : s.cages c = some cg) {p : Str}
    {flags : BitVec 32} (mode : BitVec 32) (hno : ∀ i, ¬ Leads s cg p i) (hf : flags &&& 0o100#32 = 0#32)
    (hfd : ∃ fd, fd < 1024 ∧ cg.fds fd = none) :
    step s c (.openP p flags mode) = (s, { ret := .err .ENOENT }) := by
  obtain ⟨par, hw, -⟩ := h.inv.walk_missing hc hno
  obtain ⟨fd, h1, h2⟩ := hfd
  have hf' : flags &&& oCREAT = 0 := hf
  simp only [step, hc, openSys]
  split
  · rfl
  cases hn : nextFd cg.fds 0 with
  | none => exact absurd h2 (nextFd_none hn fd (Nat.zero_le _) h1)
  | some fd' => cases par <;> simp only [Fs.openP, hw, hf', if_true, Out.r]

/-- C19.  An existing object (not a socket), without O_EXCL and without O_TRUNC: open succeeds, designates that object, and
changes neither its attributes or content nor any other inode. -/
theorem open_existing {s : State} (h : Reach s) {c : Nat} {cg : Cage} (hc : s.cages c = some cg) {p : Str} {i : Nat}
    {nd : Inode} (hp : p ≠ []) (hi : Leads s cg p i) (hnd : s.fs.inodes i = some nd) (hk : nd.kind ≠ .sock)
    {flags : BitVec 32} (mode : BitVec 32) (hx : flags &&& 0o200#32 = 0#32) (ht : flags &&& 0o1000#32 = 0#32)
    (hfd : ∃ fd, fd < 1024 ∧ cg.fds fd = none) :
    let r := step s c (.openP p flags mode)
    ∃ fd, r.2.ret = .ok (fd : Nat) ∧ OpenOn r.1 c fd i (if flags &&& 0o2000#32 ≠ 0#32 then nd.size else 0) (flags &&& 0o2000003#32) ∧
      r.1.fs.inodes = upd s.fs.inodes i (some { nd with ref := nd.ref + 1 }) ∧ ∀ j, bytes r.1 j = bytes s j := by
  obtain ⟨par, hw, -⟩ := h.inv.walk_found hc hi
  obtain ⟨fd, h1, h2⟩ := hfd
  simp only [step, hc, openSys, if_neg hp]
  cases hn : nextFd cg.fds 0 with
  | none => exact absurd h2 (nextFd_none hn fd (Nat.zero_le _) h1)
  | some fd' =>
    have hx' : ¬ (flags &&& (oCREAT ||| oEXCL) = oCREAT ||| oEXCL) := by
      intro e
      have e1 : flags &&& (oCREAT ||| oEXCL) &&& 0o200#32 = (oCREAT ||| oEXCL) &&& 0o200#32 := by rw [e]
      rw [BitVec.and_assoc, show (oCREAT ||| oEXCL) &&& 0o200#32 = 0o200#32 from by decide, hx] at e1
      revert e1; decide
    have ht' : ¬ (flags &&& oTRUNC = oTRUNC) := by
      intro e; rw [show flags &&& oTRUNC = 0#32 from ht] at e; revert e; decide
    have key : ∀ fs' : Fs, (fs'.inodes = upd s.fs.inodes i (some { nd with ref := nd.ref + 1 })) →
        (∀ j, (fs'.disk j).getD [] = (s.fs.disk j).getD []) →
        ∃ fd, (Out.r (.ok ((fd' : Nat) : Int))).ret = .ok (fd : Nat) ∧
        OpenOn (({ s with fs := fs' } : State).setFd c fd' (some (newDesc i nd.size flags))) c fd i
          (if flags &&& 0o2000#32 ≠ 0#32 then nd.size else 0) (flags &&& 0o2000003#32) ∧
        (({ s with fs := fs' } : State).setFd c fd' (some (newDesc i nd.size flags))).fs.inodes =
          upd s.fs.inodes i (some { nd with ref := nd.ref + 1 }) ∧
        ∀ j, bytes (({ s with fs := fs' } : State).setFd c fd' (some (newDesc i nd.size flags))) j = bytes s j := by
      intro fs' e1 e2
      refine ⟨fd', rfl, ⟨(nextFd_some hn).2.1, cg.withSlot fd' (some (newDesc i nd.size flags)), ?_, ?_⟩, ?_, ?_⟩
      · rw [setFd_at (s := { s with fs := fs' }) hc, upd_same]
      · simp only [Cage.withSlot, upd_same]; rfl
      · rw [setFd_fs]; exact e1
      · intro j; simp only [bytes, setFd_fs]; exact e2 j
    simp only [Fs.openP, hw, Fs.openExisting, if_neg hx', hnd, if_neg ht']
    cases hkk : nd.kind with
    | sock => exact absurd hkk hk
    | dir => simpa only [hkk] using key (s.fs.set i (some { nd with ref := nd.ref + 1 })) rfl (fun _ => rfl)
    | chr dev => simpa only [hkk] using key (s.fs.set i (some { nd with ref := nd.ref + 1 })) rfl (fun _ => rfl)
    | file =>
      have := key ((s.fs.openObj i nd.size).set i (some { nd with ref := nd.ref + 1 }))
        (by simp only [Fs.set, Fs.openObj]; split <;> rfl) ?_
      · simpa only [hkk] using this
      intro j
      simp only [Fs.set, Fs.openObj]
      split
      · rfl
      · by_cases e : j = i
        · subst e; simp
        · simp [e]

/-! ## C15 -/

theorem empty_iff {s : State} (h : Reach s) {i : Nat} {nd : Inode} (hi : s.fs.inodes i = some nd) (hd : nd.isDir)
    (h7 : i ≠ 7) : Empty s i ↔ nd.link ≤ 3 := by
  have T := h.inv.fs.tree
  constructor
  · intro he
    obtain ⟨g1, p, g2, -⟩ := T.dots hi hd h7
    have hnd := T.nodup hi
    have l1 := entDel_length hnd g1
    have hnd1 := entDel_nodup (n := dot) hnd
    have l2 := entDel_length (n := dotdot) hnd1 (i := p)
      ((entGet_iff hnd1).2 (mem_entDel.2 ⟨entGet_mem g2, by decide⟩))
    have l3 : entDel (entDel nd.ents dot) dotdot = [] := by
      apply List.eq_nil_iff_forall_not_mem.2
      rintro ⟨n, j⟩ hm
      obtain ⟨hm, h2⟩ := mem_entDel.1 hm
      obtain ⟨hm, h1⟩ := mem_entDel.1 hm
      have hb := he n j ((entry_iff hi).2 hm)
      rw [(isDots_iff n).2 ⟨h1, h2⟩] at hb; cases hb
    have := T.dlink hi hd h7
    rw [l3] at l2
    simp only [List.length_nil] at l2
    omega
  · intro hl n j hm
    cases hb : isDots n
    · exact absurd ((isDots_iff n).1 hb) (empty_of_link T hi hd h7 hl n j ((entry_iff hi).1 hm))
    · rfl

/-- What a permitted rmdir does. -/
theorem rmdir_eq {fs : Fs} {i par : Nat} {ps : List Name} {n : Name} {pd nd : Inode}
    (hw : fs.walk (ps ++ [n]) = some (some i, some par)) (hpar : fs.inodes par = some pd) (hd : pd.isDir)
    (hi : fs.inodes i = some nd) (hnd : nd.isDir) (hg : entGet pd.ents n = some i) (hne : i ≠ par)
    (h1 : pd.mode &&& sIWALL ≠ 0) (h2 : nd.link ≤ 3) (h3 : modeIsDir nd.mode = true) (h4 : nd.mode &&& sIWALL ≠ 0) :
    ∃ fs', fs.rmdir (ps ++ [n]) = (fs', .ok 0) ∧ fs'.disk = fs.disk ∧ fs'.fobj = fs.fobj ∧ fs'.next = fs.next ∧
      fs'.inodes = (let m := upd fs.inodes par (some { pd with ents := entDel pd.ents n, link := pd.link - 1 })
        if nd.ref = 0 then upd m i none else m) := by
  have hset : ∀ x, (if nd.ref = 0 then fs.set i x else fs).inodes par = some pd := by
    intro x; split
    · simp [Fs.set, hne.symm, hpar]
    · exact hpar
  simp only [Fs.rmdir, hw, hpar, hd, h1, and_false, if_false, hi, hnd, if_true, show ¬ nd.link > 3 from by omega, h3,
    Bool.not_true, Bool.false_eq_true, h4, Fs.removeFromParent, hset, getLast_snoc, hg]
  refine ⟨_, rfl, ?_⟩
  by_cases hz : nd.ref = 0
  · simp only [hz, if_true, Fs.logIno, Fs.set, true_and]
    funext j; simp only [upd_apply]; split
    · rfl
    · split <;> rfl
  · simp only [hz, if_false, Fs.logIno, Fs.set, true_and]

/-- C15.  `rmdir` succeeds exactly for an existing empty directory, not the root, held by a writable directory.
Partial: it also wants the directory itself to be writable (`rmdir_own_mode_violated`) and its mode word to carry the
directory type (`rmdir_type_bits_violated`). -/
theorem rmdir_iff_partial {s : State} (h : Reach s) {c : Nat} {cg : Cage} (hc : s.cages c = some cg) {p : Str} :
    (step s c (.rmdir p)).2.ret = .ok 0 ↔
    p ≠ [] ∧ ∃ ns n d i pd nd, cg.path p = ns ++ [n] ∧ Walk s.fs.inodes rootIno ns d ∧ s.fs.inodes d = some pd ∧
      Leads s cg p i ∧ s.fs.inodes i = some nd ∧ nd.kind = .dir ∧ Empty s i ∧ pd.mode &&& 0o222#32 ≠ 0#32 ∧
      nd.mode &&& 0o222#32 ≠ 0#32 ∧ nd.mode &&& 0o170000#32 = 0o40000#32 := by
  simp only [step, hc, nonEmpty]
  by_cases hp : p = []
  · simp [hp, Out.r]
  simp only [hp, if_false, State.onFs, Out.r, ne_eq, not_false_eq_true, true_and]
  have T := h.inv.fs.tree
  obtain ⟨r, hr, hlook⟩ := look T (cg.path p) (h.inv.gp hc p)
  constructor
  · intro hok
    cases hlook with
    | root => simp only [Fs.rmdir, hr] at hok; cases hok
    | gone => simp only [Fs.rmdir, hr] at hok; cases hok
    | free => simp only [Fs.rmdir, hr] at hok; cases hok
    | found heq w w' hpar hd hl hf hg hi h1 h7 hne =>
      rename_i i par ps n pd nd
      simp only [Fs.rmdir, hr, hpar, hi] at hok
      by_cases c1 : pd.mode &&& sIWALL = 0
      · simp only [hd, c1, and_self, if_true] at hok; cases hok
      · simp only [c1, and_false, if_false] at hok
        cases hnd : nd.isDir with
        | false => simp only [hnd, Bool.false_eq_true, if_false] at hok; cases hok
        | true =>
          simp only [hnd, if_true] at hok
          by_cases c2 : nd.link > 3
          · simp only [c2, if_true] at hok; cases hok
          · simp only [c2, if_false] at hok
            cases hm : modeIsDir nd.mode with
            | false => simp only [hm, Bool.not_false, if_true] at hok; cases hok
            | true =>
              simp only [hm, Bool.not_true, Bool.false_eq_true, if_false] at hok
              by_cases c3 : nd.mode &&& sIWALL = 0
              · simp only [c3, if_true] at hok; cases hok
              · exact ⟨ps, n, par, i, pd, nd, heq, w, hpar, w', hi, isDir_iff.1 hnd,
                  (empty_iff h hi hnd h7).2 (by omega), c1, c3, by simpa [modeIsDir, sFileType, sIFDIR] using hm⟩
  · rintro ⟨ns, n', d, i', pd', nd', e, wd, hd', hl', hi', hk, he, c1, c3, hm⟩
    cases hlook with
    | root e' => rw [e'] at e; simp at e
    | gone _ _ hno => exact absurd hl' (hno _)
    | free _ _ _ _ _ _ _ hno => exact absurd hl' (hno _)
    | found heq w w' hpar hd hl hf hg hi h1 h7 hne =>
      rename_i i par ps n pd nd
      have ei := walk_fun T w' hl'; subst ei
      rw [hi] at hi'; cases hi'
      rw [heq] at e
      have e2 := List.append_inj' e rfl
      have e3 := e2.2
      simp only [List.cons.injEq, and_true] at e3
      subst e3
      rw [← e2.1] at wd
      have ed := walk_fun T w wd; subst ed
      rw [hpar] at hd'; cases hd'
      rw [heq] at hr ⊢
      obtain ⟨fs', q, -⟩ := rmdir_eq hr hpar hd hi (isDir_iff.2 hk) hf hne c1 ((empty_iff h hi (isDir_iff.2 hk) h7).1 he)
        (by simpa [modeIsDir, sFileType, sIFDIR] using hm) c3
      rw [q]

/-- The only way down to a directory is through the directory above it. -/
theorem dir_entry_unique {s : State} (h : Reach s) {a b i : Nat} {n m : Name} {na nb nd : Inode}
    (ha : s.fs.inodes a = some na) (hma : (n, i) ∈ na.ents) (hn : Proper n)
    (hb : s.fs.inodes b = some nb) (hmb : (m, i) ∈ nb.ents) (hm : Proper m)
    (hi : s.fs.inodes i = some nd) (hd : nd.isDir) : a = b ∧ n = m := by
  have T := h.inv.fs.tree
  obtain ⟨-, -, -, x, hx, h1⟩ := T.ent ha hma hn
  rw [hi] at hx; cases hx
  obtain ⟨-, -, -, x, hx, h2⟩ := T.ent hb hmb hm
  rw [hi] at hx; cases hx
  have e := (h1 hd).1
  rw [(h2 hd).1] at e; cases e
  rw [ha] at hb; cases hb
  exact ⟨rfl, T.one ha hma hmb hn hm hi hd⟩

/-- C15.  After a successful `rmdir` the paths lead where they led, except those that led to the removed
directory, which lead nowhere.  Nothing else becomes unreachable, no content and no other inode than the parent changes. -/
theorem rmdir_effect {s : State} (h : Reach s) {c : Nat} {cg : Cage} (hc : s.cages c = some cg) {p : Str} {i : Nat}
    (hok : (step s c (.rmdir p)).2.ret = .ok 0) (hi : Leads s cg p i) :
    let s' := (step s c (.rmdir p)).1
    (∀ q k, (∀ n ∈ q, isDots n = false) →
      (Walk s'.fs.inodes rootIno q k ↔ Walk s.fs.inodes rootIno q k ∧ k ≠ i)) ∧
    (∀ j, bytes s' j = bytes s j) ∧
    ∃ d, Entry s d ((cg.path p).getLastD []) i ∧ ∀ j, j ≠ i → j ≠ d → s'.fs.inodes j = s.fs.inodes j := by
  have T := h.inv.fs.tree
  obtain ⟨hp, ns, n', d, i', pd', nd', e, wd, hd', hl', hi', hk, he, c1, c3, hm⟩ := (rmdir_iff_partial h hc).1 hok
  have ei := walk_fun T hi hl'; subst ei
  obtain ⟨r, hr, hlook⟩ := look T (cg.path p) (h.inv.gp hc p)
  cases hlook with
  | root e' => rw [e'] at e; simp at e
  | gone _ _ hno => exact absurd hl' (hno _)
  | free _ _ _ _ _ _ _ hno => exact absurd hl' (hno _)
  | found heq w w' hpar hd hl hf hg hi0 h1 h7 hne =>
    rename_i i0 par ps n pd nd
    have ei := walk_fun T w' hl'; subst ei
    have := Option.some.inj (hi0.symm.trans hi'); subst this
    rw [heq] at e
    have e2 := List.append_inj' e rfl
    have e3 := e2.2
    simp only [List.cons.injEq, and_true] at e3
    subst e3
    rw [← e2.1] at wd
    have ed := walk_fun T w wd; subst ed
    have := Option.some.inj (hpar.symm.trans hd'); subst this
    have hnd := isDir_iff.2 hk
    rw [heq] at hr
    obtain ⟨fs', q, q1, q2, q3, q4⟩ := rmdir_eq hr hpar hd hi0 hnd hf hne c1 ((empty_iff h hi0 hnd h7).1 he)
      (by simpa [modeIsDir, sFileType, sIFDIR] using hm) c3
    simp only [step, hc, nonEmpty, hp, if_false, State.onFs, heq, q]
    have hdead : ∀ k ns, (∀ n ∈ ns, isDots n = false) → Walk s.fs.inodes i0 ns k → k = i0 := by
      intro k ns hns hw
      cases hw with
      | here => rfl
      | down a _ b _ =>
        have hb := he _ _ ((entry_iff a).2 b)
        rw [hns _ (by simp)] at hb; cases hb
    refine ⟨?_, ?_, par, ?_, ?_⟩
    · intro q k hq
      rw [q4]
      generalize hino : (let m := upd s.fs.inodes par (some { pd with ents := entDel pd.ents n, link := pd.link - 1 })
        if nd.ref = 0 then upd m i0 none else m) = ino'
      have hp' : ino' par = some { pd with ents := entDel pd.ents n, link := pd.link - 1 } := by
        subst hino; simp only; split
        · rw [upd_ne _ _ hne.symm, upd_same]
        · rw [upd_same]
      have ho' : ∀ j, j ≠ par → j ≠ i0 → ino' j = s.fs.inodes j := by
        intro j a b
        subst hino; simp only; split
        · rw [upd_ne _ _ b, upd_ne _ _ a]
        · rw [upd_ne _ _ a]
      have hi' : ino' i0 = none ∨ ino' i0 = some nd := by
        subst hino; simp only; split
        · left; rw [upd_same]
        · right; rw [upd_ne _ _ hne, hi0]
      constructor
      · intro hw
        constructor
        · apply hw.congr
          intro x nx hx hdx
          by_cases ex : x = par
          · subst ex; rw [hp'] at hx; cases hx
            exact ⟨pd, hpar, hd, fun ⟨a, b⟩ hm => (mem_entDel.1 hm).1⟩
          · by_cases ex' : x = i0
            · subst ex'
              rcases hi' with hi' | hi'
              · rw [hi'] at hx; cases hx
              · rw [hi'] at hx; cases hx; exact ⟨nd, hi0, hdx, fun _ h => h⟩
            · rw [ho' x ex ex'] at hx; exact ⟨nx, hx, hdx, fun _ h => h⟩
        · rintro rfl
          rcases List.eq_nil_or_concat q with eq | ⟨ms, m, eq⟩
          · subst eq; cases hw; exact h1 rfl
          · rw [List.concat_eq_append] at eq; subst eq
            obtain ⟨a, na, -, ha, hda, hma⟩ := hw.split
            have hpm : Proper m := (isDots_iff m).1 (hq m (by simp))
            by_cases ea : a = par
            · subst ea
              rw [hp'] at ha; cases ha
              obtain ⟨hma, hmn⟩ := mem_entDel.1 hma
              exact hmn (dir_entry_unique h hpar hma hpm hpar (entGet_mem hf) (Good.proper hg) hi0 hnd).2
            · by_cases ea' : a = k
              · subst ea'
                have ha2 : na = nd := by
                  rcases hi' with hi' | hi'
                  · rw [hi'] at ha; cases ha
                  · rw [hi'] at ha; cases ha; rfl
                subst ha2
                have := he m _ ((entry_iff hi0).2 hma)
                rw [hq m (by simp)] at this; cases this
              · rw [ho' a ea ea'] at ha
                exact ea (dir_entry_unique h ha hma hpm hpar (entGet_mem hf) (Good.proper hg) hi0 hnd).1
      · rintro ⟨hw, hk⟩
        have key : ∀ {x q k}, Walk s.fs.inodes x q k → (∀ n ∈ q, isDots n = false) → k ≠ i0 → Walk ino' x q k := by
          intro x q k hw
          induction hw with
          | here => intro _ _; exact .here _
          | down a b z w ih =>
            rename_i x j k m ms nx
            intro hq hk
            have hq' : ∀ n ∈ ms, isDots n = false := fun n hn => hq n (by simp [hn])
            have hx : x ≠ i0 := by
              rintro rfl
              exact hk (hdead k (m :: ms) hq (.down a b z w))
            have hj : j ≠ i0 := by
              rintro rfl
              exact hk (hdead k ms hq' w)
            by_cases ex : x = par
            · subst ex
              rw [hpar] at a; cases a
              refine .down hp' hd (mem_entDel.2 ⟨z, ?_⟩) (ih hq' hk)
              rintro rfl
              have := (entGet_iff (T.nodup hpar)).2 z
              rw [hf] at this; cases this; exact hj rfl
            · exact .down (by rw [ho' x ex hx]; exact a) b z (ih hq' hk)
        exact key hw hq hk
    · intro j; simp only [bytes, q1]
    · simp only [entry_iff hpar, List.getLastD_eq_getLast?, getLast_snoc, Option.getD_some]; exact entGet_mem hf
    · intro j a b
      rw [q4]; simp only; split
      · rw [upd_ne _ _ a, upd_ne _ _ b]
      · rw [upd_ne _ _ b]

/-! ## C24 -/

/-- Directories have larger numbers than the directories above them. -/
theorem walk_le {ino : Nat → Option Inode} {next : Nat} (T : Tree ino next) {d e : Nat} {ns : List Name} {nd : Inode}
    (hw : Walk ino d ns e) (hns : ∀ n ∈ ns, Proper n) (he : ino e = some nd) (hd : nd.isDir) :
    d ≤ e ∧ (ns ≠ [] → d < e) := by
  induction hw with
  | here => exact ⟨Nat.le_refl _, by simp⟩
  | down a b c w ih =>
    have ih := ih (fun n hn => hns n (by simp [hn])) he
    obtain ⟨-, -, -, jd, hj, h1⟩ := T.ent a c (hns _ (by simp))
    have hjd : jd.isDir = true := by
      cases w with
      | here => rw [he] at hj; cases hj; exact hd
      | down x y _ _ => rw [x] at hj; cases hj; exact y
    have := (h1 hjd).2
    exact ⟨by omega, fun _ => by omega⟩

/-- The way down to a directory does not depend on what that directory contains. -/
theorem walk_avoid {ino ino' : Nat → Option Inode} {next : Nat} (T : Tree ino next) {d e : Nat} {ns : List Name} {nd : Inode}
    (hw : Walk ino d ns e) (hns : ∀ n ∈ ns, Proper n) (he : ino e = some nd) (hd : nd.isDir)
    (hsame : ∀ x, x ≠ e → ino' x = ino x) : Walk ino' d ns e := by
  induction hw with
  | here => exact .here _
  | down a b c w ih =>
    have hlt := (walk_le T (.down a b c w) hns he hd).2 (by simp)
    exact .down (by rw [hsame _ (by omega)]; exact a) b c (ih (fun n hn => hns n (by simp [hn])) he hsame)

theorem rename_eq {fs : Fs} {i par : Nat} {ps ps2 : List Name} {o n : Name} {pd : Inode} {x : Option Nat}
    (hw : fs.walk (ps ++ [o]) = some (some i, some par)) (hw2 : fs.walk (ps2 ++ [n]) = some (x, some par))
    (hpar : fs.inodes par = some pd) (hd : pd.isDir) :
    ∃ fs', fs.rename (ps ++ [o]) (ps2 ++ [n]) = (fs', .ok 0) ∧ fs'.disk = fs.disk ∧ fs'.fobj = fs.fobj ∧
      fs'.next = fs.next ∧
      fs'.inodes = upd fs.inodes par (some { pd with ents := entDel (entPut pd.ents n i) o }) := by
  simp only [Fs.rename, hw, hw2, ne_eq, not_true_eq_false, if_false, hpar, getLast_snoc, hd, if_true]
  exact ⟨_, rfl, rfl, rfl, rfl, rfl⟩

/-- C24.  Renaming to a free name in the same directory succeeds; and it succeeds (to a free name) only so. -/
theorem rename_succeeds_partial {s : State} (h : Reach s) {c : Nat} {cg : Cage} (hc : s.cages c = some cg) {old new : Str}
    (hfree : ∀ j, ¬ Leads s cg new j) :
    (step s c (.rename old new)).2.ret = .ok 0 ↔
    old ≠ [] ∧ new ≠ [] ∧ ∃ ps qs o n d i, cg.path old = ps ++ [o] ∧ cg.path new = qs ++ [n] ∧
      Walk s.fs.inodes rootIno ps d ∧ Walk s.fs.inodes rootIno qs d ∧ Leads s cg old i := by
  have T := h.inv.fs.tree
  simp only [step, hc, nonEmpty]
  by_cases hp : old = []
  · simp [hp, Out.r]
  by_cases hp' : new = []
  · simp [hp, hp', Out.r]
  simp only [hp, hp', if_false, State.onFs, Out.r, ne_eq, not_false_eq_true, true_and]
  obtain ⟨r, hr, hlook⟩ := look T (cg.path old) (h.inv.gp hc old)
  obtain ⟨par2, hr2, hlook2⟩ := h.inv.walk_missing hc hfree
  cases hlook with
  | root e =>
    simp only [Fs.rename, hr]
    refine ⟨fun e => by (cases e), ?_⟩
    rintro ⟨ps, qs, o, n, d, i, e1, -⟩; rw [e] at e1; simp at e1
  | gone _ _ hno =>
    simp only [Fs.rename, hr]
    refine ⟨fun e => by (cases e), ?_⟩
    rintro ⟨ps, qs, o, n, d, i, -, -, -, -, w⟩; exact absurd w (hno _)
  | free _ _ _ _ _ _ _ hno =>
    simp only [Fs.rename, hr]
    refine ⟨fun e => by (cases e), ?_⟩
    rintro ⟨ps, qs, o, n, d, i, -, -, -, -, w⟩; exact absurd w (hno _)
  | found heq w w' hpar hd hl hf hg hi h1 h7 hne =>
    rename_i i par ps o pd nd
    constructor
    · intro hok
      simp only [Fs.rename, hr, hr2] at hok
      by_cases e : par2 = some par
      · subst e
        cases hlook2 with
        | free heq2 w2 => exact ⟨_, _, _, _, par, i, heq, heq2, w, w2, w'⟩
      · simp only [ne_eq, e, not_false_eq_true, if_true] at hok; cases hok
    · rintro ⟨ps1, qs1, o1, n1, d, i1, e1, e2, wd, wq, -⟩
      rw [heq] at e1
      have e1 := List.append_inj' e1 rfl
      have ed : par = d := walk_fun T w (e1.1 ▸ wd)
      subst ed
      cases hlook2 with
      | free heq2 w2 hpar2 hd2 hl2 hf2 hg2 hno2 =>
        rename_i par2 ps2 n2 pd2
        rw [heq2] at e2
        have e2 := List.append_inj' e2 rfl
        have ed : par2 = par := walk_fun T w2 (e2.1 ▸ wq)
        subst ed
        rw [heq] at hr ⊢
        rw [heq2] at hr2 ⊢
        obtain ⟨fs', q, -⟩ := rename_eq hr hr2 hpar hd
        rw [q]
      | gone a b =>
        have := b qs1 n1 par pd e2 wq hpar
        rw [hd] at this; cases this

/-- C24.  After a successful rename to a free name: that name designates the object, the old name is gone, every
other name is as it was, and so are all attributes and contents.  Partial: for an existing target see
`rename_overwrite_violated`, for equal names `rename_self_violated`. -/
theorem rename_effect_partial {s : State} (h : Reach s) {c : Nat} {cg : Cage} (hc : s.cages c = some cg) {old new : Str}
    (hfree : ∀ j, ¬ Leads s cg new j) {i : Nat} (hi : Leads s cg old i)
    (hok : (step s c (.rename old new)).2.ret = .ok 0) :
    let s' := (step s c (.rename old new)).1
    Leads s' cg new i ∧ (∀ j, ¬ Leads s' cg old j) ∧
    (∃ ps qs o n d, cg.path old = ps ++ [o] ∧ cg.path new = qs ++ [n] ∧ Walk s.fs.inodes rootIno ps d ∧
      (∀ k j, Entry s' d k j ↔ (k = n ∧ j = i) ∨ (k ≠ o ∧ k ≠ n ∧ Entry s d k j)) ∧
      (∀ x k j, x ≠ d → (Entry s' x k j ↔ Entry s x k j))) ∧
    ∀ j, SameObj s s' j ∧ (s'.fs.inodes j).map Inode.link = (s.fs.inodes j).map Inode.link := by
  have T := h.inv.fs.tree
  obtain ⟨hp, hp', ps1, qs1, o1, n1, d, i1, e1, e2, wd, wq, -⟩ := (rename_succeeds_partial h hc hfree).1 hok
  obtain ⟨par, hr, hlook⟩ := h.inv.walk_found hc hi
  obtain ⟨par2, hr2, hlook2⟩ := h.inv.walk_missing hc hfree
  have hgo := h.inv.gp hc old
  have hgn := h.inv.gp hc new
  cases hlook with
  | root e => rw [e] at e1; simp at e1
  | found heq w w' hpar hd hl hf hg hi0 h1 h7 hne =>
    rename_i par ps o pd nd
    rw [heq] at e1
    have e1 := List.append_inj' e1 rfl
    have ed : par = d := walk_fun T w (e1.1 ▸ wd)
    subst ed
    cases hlook2 with
    | gone a b =>
      have := b qs1 n1 par pd e2 wq hpar
      rw [hd] at this; cases this
    | free heq2 w2 hpar2 hd2 hl2 hf2 hg2 hno2 =>
      rename_i par2 ps2 n pd2
      rw [heq2] at e2
      have e2 := List.append_inj' e2 rfl
      have ed : par2 = par := walk_fun T w2 (e2.1 ▸ wq)
      subst ed
      have := Option.some.inj (hpar.symm.trans hpar2); subst this
      rw [heq] at hr hgo
      rw [heq2] at hr2 hgn
      obtain ⟨fs', q, q1, q2, q3, q4⟩ := rename_eq hr hr2 hpar hd
      have hon : o ≠ n := by rintro rfl; rw [hf] at hf2; cases hf2
      simp only [step, hc, nonEmpty, hp, hp', if_false, State.onFs, Leads, heq, heq2]
      rw [q]
      have hsame : ∀ x, x ≠ par2 → fs'.inodes x = s.fs.inodes x := fun x e => by rw [q4, upd_ne _ _ e]
      have hp2 : fs'.inodes par2 = some { pd with ents := entDel (entPut pd.ents n i) o } := by rw [q4, upd_same]
      have wn : Walk fs'.inodes rootIno ps2 par2 :=
        walk_avoid T w2 (fun m hm => Good.proper (hgn m (by simp [hm]))) hpar hd hsame
      have wo : Walk fs'.inodes rootIno ps par2 :=
        walk_avoid T w (fun m hm => Good.proper (hgo m (by simp [hm]))) hpar hd hsame
      have hent : ∀ k j, (k, j) ∈ entDel (entPut pd.ents n i) o ↔
          (k = n ∧ j = i) ∨ (k ≠ o ∧ k ≠ n ∧ (k, j) ∈ pd.ents) := by
        intro k j
        rw [mem_entDel, mem_entPut]
        constructor
        · rintro ⟨⟨rfl, rfl⟩ | ⟨a, b⟩, c⟩
          · exact .inl ⟨rfl, rfl⟩
          · exact .inr ⟨c, b, a⟩
        · rintro (⟨rfl, rfl⟩ | ⟨a, b, c⟩)
          · exact ⟨.inl ⟨rfl, rfl⟩, hon.symm⟩
          · exact ⟨.inr ⟨c, b⟩, a⟩
      have T' : Tree fs'.inodes fs'.next := by
        rw [q3, q4]
        exact T.rename hpar hd hl (Good.proper hg) hg2 hf hf2
            (pd' := { pd with ents := entDel (entPut pd.ents n i) o }) ⟨rfl, rfl, rfl⟩
      refine ⟨?_, ?_, ⟨ps, ps2, o, n, par2, rfl, rfl, w, ?_, ?_⟩, ?_⟩
      · exact wn.snoc hp2 hd ((hent n i).2 (.inl ⟨rfl, rfl⟩))
      · intro j hj
        obtain ⟨a, na, w3, h3, h4, h5⟩ := hj.split
        have := walk_fun T' wo w3; subst this
        rw [hp2] at h3; cases h3
        rcases (hent o j).1 h5 with ⟨e, -⟩ | ⟨e, -⟩
        · exact hon e
        · exact e rfl
      · intro k j
        rw [entry_iff (s := { s with fs := fs' }) hp2, entry_iff hpar]
        exact hent k j
      · intro x k j hx
        simp only [Entry, entries, hsame x hx]
      · intro j
        by_cases ej : j = par2
        · subst ej
          refine ⟨⟨?_, by simp only [bytes, q1]⟩, ?_⟩
          · intro x hx; rw [hpar] at hx; cases hx; exact ⟨_, hp2, rfl, rfl, rfl⟩
          · simp only [hp2, hpar, Option.map_some]
        · simp only [SameObj, hsame j ej, bytes, q1, and_true]
          intro x hx; exact ⟨x, hx, rfl, rfl, rfl⟩

/-! ## C51 -/

/-- What a permitted unlink does. -/
theorem unlink_eq {fs : Fs} {i par : Nat} {ps : List Name} {n : Name} {pd nd : Inode}
    (hw : fs.walk (ps ++ [n]) = some (some i, some par)) (hpar : fs.inodes par = some pd) (hd : pd.isDir)
    (hi : fs.inodes i = some nd) (hnd : nd.isDir = false) (hg : entGet pd.ents n = some i) (hne : i ≠ par)
    (h1 : pd.mode &&& sIWALL ≠ 0) (h2 : nd.isFile = true → fs.disk i ≠ none) :
    ∃ fs', fs.unlink (ps ++ [n]) = (fs', .ok 0) ∧ fs'.fobj = fs.fobj ∧ fs'.next = fs.next ∧
      (∀ j, j ≠ i → fs'.disk j = fs.disk j) ∧
      (∀ j, j ≠ i → j ≠ par → fs'.inodes j = fs.inodes j) ∧
      fs'.inodes par = some { pd with ents := entDel pd.ents n, link := pd.link - 1 } ∧
      (nd.link - 1 = 0 ∧ nd.ref = 0 → fs'.inodes i = none ∧ (nd.isFile = true → fs'.disk i = none)) ∧
      (¬ (nd.link - 1 = 0 ∧ nd.ref = 0) → fs'.inodes i = some { nd with link := nd.link - 1 } ∧ fs'.disk i = fs.disk i) := by
  have hset : (fs.set i (some { nd with link := nd.link - 1 })).inodes par = some pd := by
    simp [Fs.set, hne.symm, hpar]
  have hnp : ¬ (nd.isFile = true ∧ nd.link - 1 = 0 ∧ nd.ref = 0 ∧ fs.disk i = none) := fun x => h2 x.1 x.2.2.2
  have hdisk : ∀ x y, ((fs.set i x).set par y).disk = fs.disk := fun _ _ => rfl
  simp only [Fs.unlink, hw, hi, hnd, Bool.false_eq_true, if_false, Fs.removeFromParent, hset, hd, if_true, h1, getLast_snoc,
    hg, hdisk, hnp]
  cases nd.isFile <;> cases nd.isSock <;> by_cases hz : nd.link - 1 = 0 ∧ nd.ref = 0 <;>
    simp only [hz, if_true, if_false, Bool.false_eq_true, and_self, not_true_eq_false, not_false_eq_true, false_implies,
      true_implies] <;>
    refine ⟨_, rfl, rfl, rfl, ?_⟩ <;>
    simp +contextual [Fs.logIno, Fs.set, Fs.rmHost, hne, hne.symm]

/-- What `unlink` does to the table, when it succeeds. -/
theorem unlink_ok {s : State} (h : Reach s) {c : Nat} {cg : Cage} (hc : s.cages c = some cg) {p : Str} {i : Nat}
    {nd : Inode} (hi : Leads s cg p i) (hnd : s.fs.inodes i = some nd)
    (hok : (step s c (.unlink p)).2.ret = .ok 0) :
    let s' := (step s c (.unlink p)).1
    s'.cages = s.cages ∧ s'.pipes = s.pipes ∧ nd.kind ≠ .dir ∧ Reach s' ∧ ∃ ps n d, cg.path p = ps ++ [n] ∧
      Walk s.fs.inodes rootIno ps d ∧
      (∀ k j, Entry s' d k j ↔ k ≠ n ∧ Entry s d k j) ∧ (∀ x k j, x ≠ d → x ≠ i → (Entry s' x k j ↔ Entry s x k j)) ∧
      (∀ j, j ≠ i → j ≠ d → s'.fs.inodes j = s.fs.inodes j) ∧
      (∀ j, j ≠ i → s'.fs.disk j = s.fs.disk j) ∧ s'.fs.fobj = s.fs.fobj ∧
      (nd.link - 1 = 0 ∧ nd.ref = 0 → s'.fs.inodes i = none ∧ (nd.kind = .file → s'.fs.disk i = none)) ∧
      (¬ (nd.link - 1 = 0 ∧ nd.ref = 0) →
        s'.fs.inodes i = some { nd with link := nd.link - 1 } ∧ s'.fs.disk i = s.fs.disk i) := by
  have T := h.inv.fs.tree
  obtain ⟨par, hr, hlook⟩ := h.inv.walk_found hc hi
  have hp : p ≠ [] := by
    rintro rfl
    simp only [step, hc, nonEmpty, if_true] at hok; cases hok
  cases hlook with
  | root => simp only [step, hc, nonEmpty, hp, if_false, State.onFs, Out.r, Fs.unlink, hr] at hok; cases hok
  | found heq w w' hpar hd hl hf hg hi0 h1 h7 hne =>
    rename_i par ps n pd nd0
    have := Option.some.inj (hi0.symm.trans hnd); subst this
    have hnd' : nd0.isDir = false := by
      cases hb : nd0.isDir with
      | false => rfl
      | true =>
        simp only [step, hc, nonEmpty, hp, if_false, State.onFs, Out.r, Fs.unlink, hr, hi0, hb, if_true] at hok
        cases hok
    have hset : (s.fs.set i (some { nd0 with link := nd0.link - 1 })).inodes par = some pd := by
      simp [Fs.set, hne.symm, hpar]
    have hwr : pd.mode &&& sIWALL ≠ 0 := by
      intro e
      simp only [step, hc, nonEmpty, hp, if_false, State.onFs, Out.r, Fs.unlink, hr, hi0, hnd', Bool.false_eq_true,
        Fs.removeFromParent, hset, hd, if_true, e] at hok
      cases hok
    have hdisk : nd0.isFile = true → s.fs.disk i ≠ none := by
      intro e
      have := h.inv.content (i := i) (size := nd0.size) ⟨nd0, hi0, isFile_iff.1 e, rfl⟩
      rw [this.1]; simp
    have hr' : s.fs.walk (ps ++ [n]) = some (some i, some par) := by rw [← heq]; exact hr
    obtain ⟨fs', q, q1, q2, q3, q4, q5, q6, q7⟩ := unlink_eq hr' hpar hd hi0 hnd' hf hne hwr hdisk
    have hR : Reach (step s c (.unlink p)).1 := by
      refine .step c _ h ?_ (by rw [hok]; simp)
      simp only [Tame, hc]
      intro i' par' pd' hr2 hpar2
      rw [hr] at hr2; cases hr2
      rw [hpar] at hpar2; cases hpar2
      exact hwr
    have hkd : nd0.kind ≠ .dir := by
      intro e; rw [isDir_iff.2 e] at hnd'; cases hnd'
    refine ⟨?_, ?_, hkd, hR, ps, n, par, heq, w, ?_⟩
    · simp only [step, hc, nonEmpty, hp, if_false, State.onFs]
    · simp only [step, hc, nonEmpty, hp, if_false, State.onFs]
    have hst : (step s c (.unlink p)).1 = { s with fs := fs' } := by
      simp only [step, hc, nonEmpty, hp, if_false, State.onFs, heq, q]
    rw [hst]
    refine ⟨?_, ?_, q4, q3, q1, ?_, q7⟩
    · intro k j
      rw [entry_iff (s := { s with fs := fs' }) q5, entry_iff hpar, mem_entDel]
      exact And.comm
    · intro x k j e1 e2
      simp only [Entry, entries, q4 x e2 e1]
    · intro hz
      exact ⟨(q6 hz).1, fun hk => (q6 hz).2 (isFile_iff.2 hk)⟩

/-- C51.  Removing a name of an open file: the file stays with its content, all descriptors keep designating it, every read
at a position returns what it returned; one name is gone, and if it was the last, no path leads to the file. -/
theorem unlink_open_file {s : State} (h : Reach s) {c : Nat} {cg : Cage} (hc : s.cages c = some cg) {p : Str}
    {i sz : Nat} (hi : Leads s cg p i) (hf : IsFile s i sz) (hopen : 0 < countSlots s.cages (isFileOf i))
    (hok : (step s c (.unlink p)).2.ret = .ok 0) :
    let s' := (step s c (.unlink p)).1
    s'.cages = s.cages ∧ IsFile s' i sz ∧ bytes s' i = bytes s i ∧ numNames s' i + 1 = numNames s i ∧
    (∀ c' fd pos f n off, OpenOn s c' fd i pos f →
      OpenOn s' c' fd i pos f ∧ (step s' c' (.pread fd n off)).2 = (step s c' (.pread fd n off)).2) ∧
    (numNames s i = 1 → ∀ q, (∀ n ∈ q, isDots n = false) → ¬ Walk s'.fs.inodes rootIno q i) := by
  obtain ⟨nd, hnd, hk, hsz⟩ := hf
  obtain ⟨u1, -, -, hR, ps, n, d, u2, u3, u4, u5, u6, u7, u8, u9, u10⟩ := unlink_ok h hc hi hnd hok
  have hkd : nd.kind ≠ .dir := by rw [hk]; simp
  have href := refs_are_descriptors h hnd hkd (by rw [hk]; simp)
  have hlink := nlink_is_names h hnd hkd
  obtain ⟨hi', hdk⟩ := u10 (by omega)
  have hlink' := nlink_is_names hR hi' hkd
  have hpos : 0 < numNames s i := by
    rw [numNames_eq]
    obtain ⟨par, hr, hlook⟩ := h.inv.walk_found hc hi
    cases hlook with
    | root =>
      obtain ⟨x, x1, x2⟩ := h.inv.fs.tree.root
      rw [hnd] at x1; cases x1
      exact absurd (isDir_iff.1 x2) hkd
    | found heq w w' hpar hd hl hfe hg hi0 h1 h7 hne =>
      rename_i par' ps' n' pd' nd'
      refine sumTo_pos (k := par') (h.inv.fs.tree.bound hpar) ?_
      simp only [namesIn, hpar]
      exact nm_pos.2 ⟨_, entGet_mem hfe, Good.proper hg⟩
  refine ⟨u1, ⟨_, hi', hk, hsz⟩, by simp only [bytes, hdk], ?_, ?_, ?_⟩
  · simp only at hlink'; omega
  · rintro c' fd pos f n off ⟨o1, cg', o2, o3⟩
    refine ⟨⟨o1, cg', by rw [u1]; exact o2, o3⟩, ?_⟩
    generalize (step s c (.unlink p)).1 = s' at *
    simp only [step, u1, o2, pread, getFd_nat o1, o3, hi', hnd, hk, Fs.readAt, u8, hdk]
    (repeat' split) <;> rfl
  · intro h1 q hq hw
    rcases List.eq_nil_or_concat q with eq | ⟨ms, m, eq⟩
    · subst eq; cases hw
      obtain ⟨x, x1, x2⟩ := h.inv.fs.tree.root
      rw [hnd] at x1; cases x1
      exact absurd (isDir_iff.1 x2) hkd
    · rw [List.concat_eq_append] at eq; subst eq
      obtain ⟨a, na, -, ha, -, hma⟩ := hw.split
      have hz : nameCount (step s c (.unlink p)).1.fs.inodes (step s c (.unlink p)).1.fs.next i = 0 := by
        rw [← numNames_eq]; simp only at hlink'; omega
      exact nameCount_zero hR.inv.fs.tree hz ha hma ((isDots_iff m).1 (hq m (by simp)))

/-- C51.  Closing a descriptor of a regular file: the file and its content go away exactly if it has no name and
this was its only descriptor; otherwise both stay. -/
theorem close_file {s : State} (h : Reach s) {c fd i pos sz : Nat} {f : BitVec 32} (ho : OpenOn s c fd i pos f)
    (hf : IsFile s i sz) :
    let r := step s c (.close fd)
    r.2.ret = .ok 0 ∧
    (numNames s i = 0 ∧ countSlots s.cages (isFileOf i) = 1 → r.1.fs.inodes i = none ∧ r.1.fs.disk i = none) ∧
    (¬ (numNames s i = 0 ∧ countSlots s.cages (isFileOf i) = 1) → IsFile r.1 i sz ∧ bytes r.1 i = bytes s i) := by
  obtain ⟨cg, hc, hg, hs⟩ := ho.get
  have hdisk := (h.inv.content hf).1
  have hfo := h.inv.fobj ho hf
  obtain ⟨nd, hnd, hk, hsz⟩ := hf
  have hkd : nd.kind ≠ .dir := by rw [hk]; simp
  have href := refs_are_descriptors h hnd hkd (by rw [hk]; simp)
  have hlink := nlink_is_names h hnd hkd
  have hpos : 0 < nd.ref := by
    have h1 := h.inv.file_held hc hs
    have := h.inv.fs.loc i
    rw [hnd] at this
    simp only [LocalAt, hk] at this
    omega
  rw [← href, ← hlink]
  obtain ⟨s', e, hI, -⟩ := h.inv.closeSlot hc hs
  simp only [step, hc, close, hg, Int.toNat_natCast, e, Out.r, true_and]
  have hfs : s'.fs = (s.fs.closeIno i).1 := by
    have hdrop := (h.inv.take hc hs).drop
    simp only [State.closeSlot, State.drop] at e
    split at e
    · rename_i s1 v e1
      simp only [Prod.mk.injEq] at e1 e
      rw [← e.1, setFd_fs, ← e1.1]
    · rename_i s1 r e2 e1
      simp only [Prod.mk.injEq] at e1 e
      rw [← e.1, ← e1.1]
  rw [hfs]
  simp only [Fs.closeIno, hnd, hk]
  by_cases hr1 : nd.ref - 1 = 0
  · simp only [hr1, if_true, hfo]
    by_cases hl0 : nd.link = 0
    · simp only [hl0, if_true, hdisk]
      constructor
      · intro _; simp [Fs.logIno, Fs.rmHost, Fs.set]
      · intro hn; exact absurd ⟨trivial, by omega⟩ hn
    · simp only [hl0, if_false]
      constructor
      · intro hn; exact absurd hn.1 (by simp)
      · intro _
        refine ⟨⟨{ nd with ref := nd.ref - 1 }, ?_, hk, hsz⟩, ?_⟩
        · simp only [hfs, Fs.closeIno, hnd, hk, hr1, if_true, hfo, hl0, if_false, Fs.set, upd_same]
        · simp only [bytes, hfs, Fs.closeIno, hnd, hk, hr1, if_true, hfo, hl0, if_false, Fs.set]
  · simp only [hr1, if_false]
    constructor
    · intro hn; omega
    · intro _
      refine ⟨⟨{ nd with ref := nd.ref - 1 }, ?_, hk, hsz⟩, ?_⟩
      · simp only [hfs, Fs.closeIno, hnd, hk, hr1, if_false, Fs.set, upd_same]
      · simp only [bytes, hfs, Fs.closeIno, hnd, hk, hr1, if_false, Fs.set]

/-! ## C46 -/

/-- C46.  `chdir` succeeds exactly for paths that lead to a directory. -/
theorem chdir_iff {s : State} (h : Reach s) {c : Nat} {cg : Cage} (hc : s.cages c = some cg) (p : Str) :
    (step s c (.chdir p)).2.ret = .ok 0 ↔ ∃ d, Leads s cg p d ∧ IsDir s d := by
  simp only [step, hc, chdir]
  by_cases hex : ∃ i, Leads s cg p i
  · obtain ⟨i, hi⟩ := hex
    obtain ⟨par, hr, -⟩ := h.inv.walk_found hc hi
    obtain ⟨nd, hnd⟩ := h.inv.leads_exists hc hi
    simp only [hr, hnd]
    cases hd : nd.isDir with
    | true =>
      simp only [if_true, Out.r, true_iff]
      exact ⟨i, hi, nd, hnd, isDir_iff.1 hd⟩
    | false =>
      simp only [Bool.false_eq_true, if_false, Out.r, reduceCtorEq, false_iff]
      rintro ⟨j, hj, nd', h1, h2⟩
      have := walk_fun h.inv.fs.tree hi hj; subst this
      rw [hnd] at h1; cases h1
      rw [isDir_iff.2 h2] at hd; cases hd
  · obtain ⟨par, hr, -⟩ := h.inv.walk_missing hc (fun i hi => hex ⟨i, hi⟩)
    simp only [hr, Out.r, reduceCtorEq, false_iff]
    rintro ⟨d, hd, -⟩; exact hex ⟨d, hd⟩

/-- C46.  After a successful `chdir` the working directory string (what `getcwd` returns) is absolute and normalised, and
leads, for every cage, to the directory the argument led to. -/
theorem chdir_getcwd {s : State} (h : Reach s) {c : Nat} {cg : Cage} (hc : s.cages c = some cg) {p : Str}
    (hok : (step s c (.chdir p)).2.ret = .ok 0) :
    let s' := (step s c (.chdir p)).1
    s'.fs = s.fs ∧ ∃ d cg', Leads s cg p d ∧ IsDir s d ∧ s'.cages c = some cg' ∧ cg'.fds = cg.fds ∧
      (∃ ns, (∀ n ∈ ns, Good n) ∧ cg'.cwd = render ns) ∧ ∀ any : Cage, Leads s' any cg'.cwd d := by
  obtain ⟨d, hd, hdir⟩ := (chdir_iff h hc p).1 hok
  obtain ⟨par, hr, -⟩ := h.inv.walk_found hc hd
  obtain ⟨nd, hnd, hk⟩ := hdir
  simp only [step, hc, chdir, hr, hnd, isDir_iff.2 hk, if_true, State.setCage]
  have hcw := (path_spec (h.inv.cage c cg hc).2.2 p).2
  refine ⟨trivial, d, _, hd, ⟨nd, hnd, hk⟩, upd_same .., rfl, ?_, ?_⟩
  · obtain ⟨ns, h1, h2⟩ := hcw; exact ⟨ns, h1, h2⟩
  · intro any
    unfold Leads
    simp only [Cage.path, normpath_self hcw]
    exact hd

theorem segs_joinPath (ns : List Name) (h : ∀ n ∈ ns, Good n) (dir : List Name) :
    resolve dir (segs (joinPath ns)) = dir ++ ns := by
  have key : ∀ ns : List Name, (∀ n ∈ ns, Good n) → segs (ns.flatMap (fun n => n ++ [slash])) = ns ++ [[]] := by
    intro ns
    induction ns with
    | nil => intro _; rfl
    | cons n ns ih =>
      intro h
      have hn := h n (by simp)
      have : (n :: ns).flatMap (fun n => n ++ [slash]) = n ++ slash :: ns.flatMap (fun n => n ++ [slash]) := by simp
      rw [this, segs_append, ih (fun m hm => h m (by simp [hm])), segs_noslash n hn.2.1]
      rfl
  have h0 : segs (joinPath ns) = [] :: (ns ++ [[]]) := by
    have := segs_append [] (ns.flatMap (fun n => n ++ [slash]))
    simp only [List.nil_append] at this
    rw [joinPath, this, key ns h]; rfl
  have h1 : ∀ d : List Name, resolve d [[]] = d := fun d => by simp [resolve]
  rw [h0, show ([] : Str) :: (ns ++ [[]]) = [[]] ++ (ns ++ [[]]) from rfl, resolve_append, h1, resolve_append,
    resolve_names ns dir h, h1]

theorem nameOf_some {es : List (Name × Nat)} {i : Nat} (h : ∃ n, (n, i) ∈ es) : ∃ n, nameOf es i = some n ∧ (n, i) ∈ es := by
  induction es with
  | nil => obtain ⟨n, h⟩ := h; simp at h
  | cons e es ih =>
    obtain ⟨m, j⟩ := e
    simp only [nameOf]
    split
    · rename_i e; subst e; exact ⟨m, rfl, by simp⟩
    · rename_i hne
      obtain ⟨n, hn⟩ := h
      simp only [List.mem_cons, Prod.mk.injEq] at hn
      rcases hn with ⟨-, e⟩ | hn
      · exact absurd e.symm hne
      · obtain ⟨k, h1, h2⟩ := ih ⟨n, hn⟩
        exact ⟨k, h1, by simp [h2]⟩

/-- Walking up from a directory that a path leads to collects that path. -/
theorem pathOf_spec {ino : Nat → Option Inode} {next : Nat} (T : Tree ino next) :
    ∀ (fuel : Nat) (ns : List Name) (i : Nat) (nd : Inode) (acc : List Name),
    Walk ino rootIno ns i → (∀ n ∈ ns, Proper n) → ns ≠ [] → ino i = some nd → nd.isDir → ns.length < fuel →
    pathOf ino fuel i true acc = (.ok 0, ns ++ acc) := by
  intro fuel
  induction fuel with
  | zero => intro ns i nd acc _ _ _ _ _ h; omega
  | succ fuel ih =>
    intro ns i nd acc hw hns hne hi hd hlen
    rcases List.eq_nil_or_concat ns with e | ⟨ms, n, e⟩
    · exact absurd e hne
    rw [List.concat_eq_append] at e; subst e
    obtain ⟨a, na, w, ha, hda, hm⟩ := hw.split
    have hpn := hns n (by simp)
    obtain ⟨-, hi1, hi7, jd, hj, hdd⟩ := T.ent ha hm hpn
    rw [hi] at hj; cases hj
    obtain ⟨hdd, hlt⟩ := hdd hd
    have hai : a ≠ i := by omega
    -- the name found in the parent is `n`
    have hname : nameOf na.ents i = some n := by
      obtain ⟨m, h1, h2⟩ := nameOf_some ⟨n, hm⟩
      have hlive : a ≠ 7 := by
        rcases List.eq_nil_or_concat ms with e | ⟨ms', n', e⟩
        · subst e; cases w; decide
        · rw [List.concat_eq_append] at e; subst e
          obtain ⟨b, nb, -, hb, -, hmb⟩ := w.split
          exact (T.ent hb hmb (hns n' (by simp))).2.2.1
      obtain ⟨g1, q, g2, g3⟩ := T.dots ha hda hlive
      have hmp : Proper m := by
        constructor
        · rintro rfl
          have := (entGet_iff (T.nodup ha)).2 h2
          rw [g1] at this; cases this; exact hai rfl
        · rintro rfl
          have := (entGet_iff (T.nodup ha)).2 h2
          rw [g2] at this; cases this
          -- `..` of the parent is smaller or the root
          rcases List.eq_nil_or_concat ms with e | ⟨ms', n', e⟩
          · subst e; cases w; exact hi1 (g3 rfl)
          · rw [List.concat_eq_append] at e; subst e
            obtain ⟨b, nb, -, hb, -, hmb⟩ := w.split
            obtain ⟨-, -, -, ad, had, had2⟩ := T.ent hb hmb (hns n' (by simp))
            rw [ha] at had; cases had
            have := (had2 hda).1
            rw [g2] at this; cases this
            have := (had2 hda).2
            omega
      have := T.one ha h2 hm hmp hpn hi hd
      rw [h1, this]
    simp only [pathOf, hi, hd, if_true, hdd, Bool.not_true, Bool.false_eq_true, and_false, if_false, hai, ha, hda, hname]
    by_cases hroot : a = rootIno
    · subst hroot
      -- the parent is the root: one more round ends the search
      have hms : ms = [] := by
        apply Classical.byContradiction
        intro hne'
        have := (walk_le T w (fun m hm => hns m (by simp [hm])) ha hda).2 hne'
        omega
      subst hms
      obtain ⟨g1, q, g2, g3⟩ := T.dots ha hda (by decide)
      have := g3 rfl; subst this
      simp only [if_true]
      cases fuel with
      | zero => simp at hlen
      | succ fuel =>
        simp only [pathOf, ha, hda, if_true, g2, Bool.not_false, and_self]
        simp
    · simp only [hroot, if_false]
      have hms : ms ≠ [] := by rintro rfl; cases w; exact hroot rfl
      rw [ih ms a na (n :: acc) w (fun m hm => hns m (by simp [hm])) hms ha hda (by simp at hlen; omega)]
      simp

/-- A path to a directory is no longer than the directory's number. -/
theorem walk_length {ino : Nat → Option Inode} {next : Nat} (T : Tree ino next) {d e : Nat} {ns : List Name} {nd : Inode}
    (hw : Walk ino d ns e) (hns : ∀ n ∈ ns, Proper n) (he : ino e = some nd) (hd : nd.isDir) : d + ns.length ≤ e := by
  induction hw with
  | here => simp
  | down a b c w ih =>
    have ih := ih (fun n hn => hns n (by simp [hn])) he
    obtain ⟨-, -, -, jd, hj, h1⟩ := T.ent a c (hns _ (by simp))
    have hjd : jd.isDir = true := by
      cases w with
      | here => rw [he] at hj; cases hj; exact hd
      | down x y _ _ => rw [x] at hj; cases hj; exact y
    have := (h1 hjd).2
    simp only [List.length_cons]
    omega

/-- C46.  `fchdir` on a descriptor of a directory that has a path, other than the root: succeeds, and the working
directory string is that path.  Partial: for the root it does not return (`fchdir_root_violated`). -/
theorem fchdir_getcwd_partial {s : State} (h : Reach s) {c fd i pos : Nat} {f : BitVec 32} (ho : OpenOn s c fd i pos f)
    (hd : IsDir s i) {ns : List Name} (hns : ∀ n ∈ ns, Good n) (hw : Walk s.fs.inodes rootIno ns i) (hne : ns ≠ []) :
    let r := step s c (.fchdir fd)
    r.2.ret = .ok 0 ∧ r.1.fs = s.fs ∧ ∃ cg', r.1.cages c = some cg' ∧ cg'.cwd = render ns ∧
      ∀ any : Cage, Leads r.1 any cg'.cwd i := by
  obtain ⟨cg, hc, hg, hs⟩ := ho.get
  obtain ⟨nd, hi, hk⟩ := hd
  have T := h.inv.fs.tree
  have hpr : ∀ n ∈ ns, Proper n := fun n hn => Good.proper (hns n hn)
  have hlen := walk_length T hw hpr hi (isDir_iff.2 hk)
  have hb := T.bound hi
  have hp := pathOf_spec T (s.fs.next + 1) ns i nd [] hw hpr hne hi (isDir_iff.2 hk) (by omega)
  simp only [step, hc, fchdir, hg, hp, List.append_nil, State.setCage]
  have hok := (h.inv.cage c cg hc).2.2
  have hrel : isRelative (joinPath ns) = false := rfl
  have hn : normpath cg.cwd (joinPath ns) = render ns := by
    rw [normpath_absolute _ (render []) _ hrel, normpath_spec [] (by simp), hrel]
    simp [segs_joinPath ns hns]
  refine ⟨rfl, trivial, _, upd_same .., hn, ?_⟩
  intro any
  unfold Leads
  have hcw : CwdOk (render ns) := ⟨ns, hns, rfl⟩
  simp only [Cage.path, hn, normpath_self hcw, names_render hns]
  exact hw

end Verif.Kernel
