import Verif.NsCalls

/-!
C62: the answer of every call that takes a path, as a table over what the path designates; and what the calls that
make names do.  The tables are the specification: they mention only what the path designates, the kind and the
permission bits of the object and of the directory holding it, and the arguments of the call.
-/

set_option linter.unusedSimpArgs false
set_option linter.unusedVariables false

namespace Verif.Kernel
open Verif.Fs Verif.Path Verif.Getdents

/-! ## Specification -/

/-- What a path designates: the root; the entry `n` of directory `d`, which is object `i`; a name `n` that
directory `d` does not have; or no place at all, because what comes before the last name is not a directory. -/
inductive Place where
  | root
  | object (d : Nat) (n : Name) (i : Nat)
  | free (d : Nat) (n : Name)
  | nowhere
  deriving DecidableEq

/-- Path `p`, given by a cage, designates the place. -/
def At (s : State) (cg : Cage) (p : Str) : Place → Prop
  | .root => cg.path p = []
  | .object d n i => ∃ ns, cg.path p = ns ++ [n] ∧ Walk s.fs.inodes rootIno ns d ∧ IsDir s d ∧ Entry s d n i
  | .free d n => ∃ ns, cg.path p = ns ++ [n] ∧ Walk s.fs.inodes rootIno ns d ∧ IsDir s d ∧ ∀ i, ¬ Entry s d n i
  | .nowhere => ∃ ns n, cg.path p = ns ++ [n] ∧ ∀ d, Walk s.fs.inodes rootIno ns d → ¬ IsDir s d

/-- The kind of object `i`. -/
def kindOf (s : State) (i : Nat) : Option Kind := (s.fs.inodes i).map Inode.kind
/-- The mode word of object `i`. -/
def modeOf (s : State) (i : Nat) : BitVec 32 := ((s.fs.inodes i).map Inode.mode).getD 0

instance (m : BitVec 32) : Decidable (ModeValid m) := inferInstanceAs (Decidable (_ = _))

/-- `mkdir`. -/
def mkdirAnswer (mode : BitVec 32) : Place → Ret
  | .root => .err .EEXIST
  | .object _ _ _ => .err .EEXIST
  | .nowhere => .err .ENOENT
  | .free _ _ => if ModeValid mode then .ok 0 else .err .EPERM

/-- `mknod`: only character devices can be made. -/
def mknodAnswer (mode : BitVec 32) : Place → Ret
  | .root => .err .EEXIST
  | .object _ _ _ => .err .EEXIST
  | .nowhere => .err .ENOENT
  | .free _ _ => if ModeValid mode then (if mode &&& 0o20000#32 = 0#32 then .err .EINVAL else .ok 0) else .err .EPERM

/-- `unlink`. -/
def unlinkAnswer (s : State) : Place → Ret
  | .root => .err .EISDIR
  | .object d _ i =>
    if kindOf s i = some .dir then .err .EISDIR
    else if modeOf s d &&& 0o222#32 = 0#32 then .err .EPERM else .ok 0
  | .free _ _ => .err .ENOENT
  | .nowhere => .err .ENOENT

open Classical in
/-- `rmdir`; the type bits of the directory's own mode word are 040000 unless `mkdir` was given others. -/
noncomputable def rmdirAnswer (s : State) : Place → Ret
  | .root => .err .EBUSY
  | .object d _ i =>
    if modeOf s d &&& 0o222#32 = 0#32 then .err .EPERM
    else if kindOf s i ≠ some .dir then .err .ENOTDIR
    else if ¬ Empty s i then .err .ENOTEMPTY
    else if modeOf s i &&& 0o170000#32 ≠ 0o40000#32 then .panic
    else if modeOf s i &&& 0o222#32 = 0#32 then .err .EPERM
    else .ok 0
  | .free _ _ => .err .ENOENT
  | .nowhere => .err .ENOENT

/-- `link`, with the place of the old and of the new path. -/
def linkAnswer (s : State) : Place → Place → Ret
  | _, .root => .panic
  | .root, _ => .err .EPERM
  | .free _ _, _ => .err .ENOENT
  | .nowhere, _ => .err .ENOENT
  | .object _ _ i, .object _ _ _ => if kindOf s i = some .dir then .err .EPERM else .err .EEXIST
  | .object _ _ i, .free _ _ => if kindOf s i = some .dir then .err .EPERM else .ok 0
  | .object _ _ i, .nowhere => if kindOf s i = some .dir then .err .EPERM else .err .ENOENT

/-- `rename`, with the place of the old and of the new path: only within one directory. -/
def renameAnswer : Place → Place → Ret
  | .root, _ => .err .EBUSY
  | .free _ _, _ => .err .EEXIST
  | .nowhere, _ => .err .EEXIST
  | .object _ _ _, .root => .err .EOPNOTSUPP
  | .object _ _ _, .nowhere => .err .EOPNOTSUPP
  | .object d _ _, .object d' _ _ => if d = d' then .ok 0 else .err .EOPNOTSUPP
  | .object d _ _, .free d' _ => if d = d' then .ok 0 else .err .EOPNOTSUPP

/-- The object at a place. -/
def Place.obj : Place → Option Nat
  | .root => some 1
  | .object _ _ i => some i
  | .free _ _ => none
  | .nowhere => none

/-- `chmod`. -/
def chmodAnswer (mode : BitVec 32) (pl : Place) : Ret :=
  match pl.obj with
  | none => .err .ENOENT
  | some _ => if mode &&& 0o777#32 = mode then .ok 0 else .err .EINVAL

/-- `chdir`. -/
def chdirAnswer (s : State) (pl : Place) : Ret :=
  match pl.obj with
  | none => .err .ENOENT
  | some i => if kindOf s i = some .dir then .ok 0 else .err .ENOTDIR

/-- `truncate`. -/
def truncateAnswer (s : State) (len : Int) (pl : Place) : Ret :=
  match pl.obj with
  | none => .err .ENOENT
  | some i =>
    if len < 0 then .err .EINVAL
    else match kindOf s i with
      | some .file => .ok 0
      | some .dir => .err .EISDIR
      | some (.chr _) => .err .EINVAL
      | some .sock => .err .EINVAL
      | none => .panic

/-- `open` of a path, with a free descriptor: the error, if there is one. -/
def openAnswer (s : State) (flags mode : BitVec 32) : Place → Option Errno
  | .root => if flags &&& 0o300#32 = 0o300#32 then some .EEXIST else none
  | .object _ _ i =>
    if flags &&& 0o300#32 = 0o300#32 then some .EEXIST
    else if kindOf s i = some .sock then some .ENXIO else none
  | .nowhere => some .ENOENT
  | .free _ _ =>
    if flags &&& 0o100#32 = 0#32 then some .ENOENT
    else if flags &&& 0o20000#32 = 0o20000#32 then some .EINVAL
    else if ModeValid mode then none else some .EPERM

/-- What making the object `i` under the name `n` of directory `d` does: `i` is new, `d` gets that entry and its
count of links goes up by one; nothing else changes. -/
def Made (s s' : State) (d : Nat) (n : Name) (i : Nat) (nd : Inode) : Prop :=
  s.fs.inodes i = none ∧ s'.fs.inodes i = some nd ∧
  (∀ k j, Entry s' d k j ↔ (k = n ∧ j = i) ∨ Entry s d k j) ∧
  (∃ pd pd', s.fs.inodes d = some pd ∧ s'.fs.inodes d = some pd' ∧
    { pd' with ents := pd.ents } = { pd with link := pd.link + 1 }) ∧
  (∀ x, x ≠ d → x ≠ i → s'.fs.inodes x = s.fs.inodes x) ∧
  (∀ x, bytes s' x = bytes s x) ∧ s'.cages = s.cages

/-! ## Lemmas -/

theorem place_unique {s : State} (h : Reach s) {cg : Cage} {p : Str} {a b : Place}
    (ha : At s cg p a) (hb : At s cg p b) : a = b := by
  have T := h.inv.fs.tree
  have inj : ∀ {ns ms : List Name} {n m : Name}, cg.path p = ns ++ [n] → cg.path p = ms ++ [m] → ns = ms ∧ n = m := by
    intro ns ms n m e1 e2
    rw [e1] at e2
    have := List.append_inj' e2 rfl
    simpa using this
  have uniq : ∀ {d : Nat} {n : Name} {i j : Nat}, Entry s d n i → Entry s d n j → i = j := by
    intro d n i j h1 h2
    cases hd : s.fs.inodes d with
    | none => simp [Entry, entries, hd] at h1
    | some nd =>
      rw [entry_iff hd] at h1 h2
      have e1 := (entGet_iff (T.nodup hd)).2 h1
      have e2 := (entGet_iff (T.nodup hd)).2 h2
      rw [e1] at e2; exact Option.some.inj e2
  cases a <;> cases b <;> simp only [At] at ha hb
  case root.root => rfl
  case root.object => obtain ⟨ns, e, -⟩ := hb; rw [ha] at e; simp at e
  case root.free => obtain ⟨ns, e, -⟩ := hb; rw [ha] at e; simp at e
  case root.nowhere => obtain ⟨ns, n, e, -⟩ := hb; rw [ha] at e; simp at e
  case object.root => obtain ⟨ns, e, -⟩ := ha; rw [hb] at e; simp at e
  case free.root => obtain ⟨ns, e, -⟩ := ha; rw [hb] at e; simp at e
  case nowhere.root => obtain ⟨ns, n, e, -⟩ := ha; rw [hb] at e; simp at e
  case object.object =>
    obtain ⟨ns, e, w, -, x⟩ := ha; obtain ⟨ms, e', w', -, x'⟩ := hb
    obtain ⟨rfl, rfl⟩ := inj e e'
    have := walk_fun T w w'; subst this
    rw [uniq x x']
  case object.free =>
    obtain ⟨ns, e, w, -, x⟩ := ha; obtain ⟨ms, e', w', -, x'⟩ := hb
    obtain ⟨rfl, rfl⟩ := inj e e'
    have := walk_fun T w w'; subst this
    exact absurd x (x' _)
  case free.object =>
    obtain ⟨ns, e, w, -, x⟩ := hb; obtain ⟨ms, e', w', -, x'⟩ := ha
    obtain ⟨rfl, rfl⟩ := inj e e'
    have := walk_fun T w w'; subst this
    exact absurd x (x' _)
  case free.free =>
    obtain ⟨ns, e, w, -⟩ := ha; obtain ⟨ms, e', w', -⟩ := hb
    obtain ⟨rfl, rfl⟩ := inj e e'
    have := walk_fun T w w'; subst this; rfl
  case object.nowhere =>
    obtain ⟨ns, e, w, x, -⟩ := ha; obtain ⟨ms, m, e', x'⟩ := hb
    obtain ⟨rfl, rfl⟩ := inj e e'
    exact absurd x (x' _ w)
  case free.nowhere =>
    obtain ⟨ns, e, w, x, -⟩ := ha; obtain ⟨ms, m, e', x'⟩ := hb
    obtain ⟨rfl, rfl⟩ := inj e e'
    exact absurd x (x' _ w)
  case nowhere.object =>
    obtain ⟨ns, e, w, x, -⟩ := hb; obtain ⟨ms, m, e', x'⟩ := ha
    obtain ⟨rfl, rfl⟩ := inj e e'
    exact absurd x (x' _ w)
  case nowhere.free =>
    obtain ⟨ns, e, w, x, -⟩ := hb; obtain ⟨ms, m, e', x'⟩ := ha
    obtain ⟨rfl, rfl⟩ := inj e e'
    exact absurd x (x' _ w)
  case nowhere.nowhere => rfl

/-- The lookup behind a place. -/
inductive Found (s : State) (cg : Cage) (p : Str) : Place → Option Nat × Option Nat → Prop
  | root : cg.path p = [] → Found s cg p .root (some rootIno, none)
  | object {i d ps n pd nd} : cg.path p = ps ++ [n] → Walk s.fs.inodes rootIno ps d → Leads s cg p i →
      s.fs.inodes d = some pd → pd.isDir → Live s.fs.inodes d → entGet pd.ents n = some i →
      Good n → s.fs.inodes i = some nd → i ≠ rootIno → i ≠ 7 → i ≠ d → Found s cg p (.object d n i) (some i, some d)
  | free {d ps n pd} : cg.path p = ps ++ [n] → Walk s.fs.inodes rootIno ps d →
      s.fs.inodes d = some pd → pd.isDir → Live s.fs.inodes d → entGet pd.ents n = none →
      Good n → Found s cg p (.free d n) (none, some d)
  | nowhere : cg.path p ≠ [] → Found s cg p .nowhere (none, none)

theorem found_exists {s : State} (h : Reach s) {c : Nat} {cg : Cage} (hc : s.cages c = some cg) (p : Str) :
    ∃ pl r, s.fs.walk (cg.path p) = some r ∧ At s cg p pl ∧ Found s cg p pl r := by
  obtain ⟨r, hr, hlook⟩ := look h.inv.fs.tree (cg.path p) (h.inv.gp hc p)
  cases hlook with
  | root e => exact ⟨.root, _, hr, e, .root e⟩
  | found e w w' hp hd hl hf hg hi h1 h7 hne =>
    exact ⟨.object _ _ _, _, hr, ⟨_, e, w, ⟨_, hp, isDir_iff.1 hd⟩, (entry_iff hp).2 (entGet_mem hf)⟩,
      .object e w w' hp hd hl hf hg hi h1 h7 hne⟩
  | free e w hp hd hl hf hg hno =>
    refine ⟨.free _ _, _, hr, ⟨_, e, w, ⟨_, hp, isDir_iff.1 hd⟩, ?_⟩, .free e w hp hd hl hf hg⟩
    intro i hi
    rw [entry_iff hp] at hi
    exact entGet_none.1 hf i hi
  | gone hne hg hno =>
    rcases List.eq_nil_or_concat (cg.path p) with e | ⟨ps, n, e⟩
    · exact absurd e hne
    · rw [List.concat_eq_append] at e
      refine ⟨.nowhere, _, hr, ⟨ps, n, e, ?_⟩, .nowhere hne⟩
      rintro d w ⟨nd, h1, h2⟩
      have := hg ps n d nd e w h1
      rw [isDir_iff.2 h2] at this; cases this

theorem At.found {s : State} (h : Reach s) {c : Nat} {cg : Cage} (hc : s.cages c = some cg) {p : Str} {pl : Place}
    (ha : At s cg p pl) : ∃ r, s.fs.walk (cg.path p) = some r ∧ Found s cg p pl r := by
  obtain ⟨pl', r, hr, hat, hf⟩ := found_exists h hc p
  have := place_unique h ha hat; subst this
  exact ⟨r, hr, hf⟩

theorem kindOf_eq {s : State} {i : Nat} {nd : Inode} (hi : s.fs.inodes i = some nd) : kindOf s i = some nd.kind := by
  simp [kindOf, hi]
theorem modeOf_eq {s : State} {i : Nat} {nd : Inode} (hi : s.fs.inodes i = some nd) : modeOf s i = nd.mode := by
  simp [modeOf, hi]
theorem kindOf_dir {s : State} {i : Nat} {nd : Inode} (hi : s.fs.inodes i = some nd) :
    kindOf s i = some .dir ↔ nd.isDir = true := by
  rw [kindOf_eq hi, isDir_iff]; simp

/-! ## C62: the answers -/

/-- C62.  Every path designates exactly one place. -/
theorem place_exists_unique {s : State} (h : Reach s) {c : Nat} {cg : Cage} (hc : s.cages c = some cg) (p : Str) :
    ∃ pl, At s cg p pl ∧ ∀ pl', At s cg p pl' → pl' = pl := by
  obtain ⟨pl, -, -, hat, -⟩ := found_exists h hc p
  exact ⟨pl, hat, fun _ h' => place_unique h h' hat⟩

/-- C62.  The calls that make, remove or move names answer ENOENT to an empty path, and nothing changes. -/
theorem empty_path (s : State) {c : Nat} {cg : Cage} (hc : s.cages c = some cg) (m f : BitVec 32) (dev : BitVec 64)
    (p : Str) : ∀ op ∈ [Op.openP [] f m, .mkdir [] m, .mknod [] m dev, .unlink [], .rmdir [], .link [] p, .link p [],
      .rename [] p, .rename p []], step s c op = (s, { ret := .err .ENOENT }) := by
  intro op hop
  simp only [List.mem_cons, List.not_mem_nil, or_false] at hop
  rcases hop with rfl | rfl | rfl | rfl | rfl | rfl | rfl | rfl | rfl <;>
    simp only [step, hc, openSys, nonEmpty, if_true, Out.r] <;> split <;> rfl

theorem mkdir_answer {s : State} (h : Reach s) {c : Nat} {cg : Cage} (hc : s.cages c = some cg) {p : Str} {pl : Place}
    (hp : p ≠ []) (ha : At s cg p pl) (mode : BitVec 32) :
    (step s c (.mkdir p mode)).2 = { ret := mkdirAnswer mode pl } := by
  obtain ⟨r, hr, hf⟩ := ha.found h hc
  simp only [step, hc, nonEmpty, if_neg hp, State.onFs, Fs.mkdir, hr, Out.r, mkdirAnswer, ← saneMode_iff]
  cases hf with
  | root => rfl
  | object => rfl
  | nowhere => rfl
  | free e w hpd hd hl hf hg =>
    rename_i d ps n pd
    obtain ⟨fs', g0, -⟩ := create_eq n (fun new =>
          { kind := .dir, mode := sIFDIR ||| mode, size := 0, link := 3, ref := 0, ents := initEnts new d }) hpd hd
    cases hm : saneMode mode <;> simp [e, getLast_snoc, g0]

theorem mknod_answer {s : State} (h : Reach s) {c : Nat} {cg : Cage} (hc : s.cages c = some cg) {p : Str} {pl : Place}
    (hp : p ≠ []) (ha : At s cg p pl) (mode : BitVec 32) (dev : BitVec 64) :
    (step s c (.mknod p mode dev)).2 = { ret := mknodAnswer mode pl } := by
  obtain ⟨r, hr, hf⟩ := ha.found h hc
  simp only [step, hc, nonEmpty, if_neg hp, State.onFs, Fs.mknod, hr, Out.r, mknodAnswer, ← saneMode_iff]
  cases hf with
  | root => rfl
  | object => rfl
  | nowhere => rfl
  | free e w hpd hd hl hf hg =>
    rename_i d ps n pd
    obtain ⟨fs', g0, -⟩ := create_eq n (fun _ =>
          { kind := .chr (DevNo.devtuple dev), mode := mode, size := 0, link := 1, ref := 0, ents := [] }) hpd hd
    cases hm : saneMode mode
    · simp
    · simp only [Bool.not_true, Bool.false_eq_true, if_false, if_true, sIFCHR, e, getLast_snoc, g0]
      by_cases hz : mode &&& 0o20000#32 = 0#32
      · simp [hz]
      · simp [hz]

theorem unlink_answer {s : State} (h : Reach s) {c : Nat} {cg : Cage} (hc : s.cages c = some cg) {p : Str} {pl : Place}
    (hp : p ≠ []) (ha : At s cg p pl) : (step s c (.unlink p)).2 = { ret := unlinkAnswer s pl } := by
  obtain ⟨r, hr, hf⟩ := ha.found h hc
  simp only [step, hc, nonEmpty, if_neg hp, State.onFs, Out.r]
  cases hf with
  | root => simp only [Fs.unlink, hr, unlinkAnswer]
  | nowhere => simp only [Fs.unlink, hr, unlinkAnswer]
  | free => simp only [Fs.unlink, hr, unlinkAnswer]
  | object e w w' hpd hd hl hf hg hi h1 h7 hne =>
    rename_i i d ps n pd nd
    simp only [unlinkAnswer, kindOf_dir hi, modeOf_eq hpd]
    cases hnd : nd.isDir with
    | true => simp only [Fs.unlink, hr, hi, hnd, if_true]
    | false =>
      simp only [Bool.false_eq_true, if_false]
      by_cases hz : pd.mode &&& 0o222#32 = 0#32
      · have hset : (s.fs.set i (some { nd with link := nd.link - 1 })).inodes d = some pd := by
          simp [Fs.set, hne.symm, hpd]
        simp [Fs.unlink, hr, hi, hnd, Fs.removeFromParent, hset, hd, sIWALL, hz]
      · rw [e] at hr ⊢
        obtain ⟨fs', q, -⟩ := unlink_eq hr hpd hd hi hnd hf hne hz (by
          intro hfile hdisk
          have := h.inv.fs.loc i
          rw [hi] at this
          simp only [LocalAt, isFile_iff.1 hfile, hdisk] at this
          obtain ⟨⟨x, hx, -⟩, -⟩ := this; cases hx)
        simp [q, hz]

theorem rmdir_answer {s : State} (h : Reach s) {c : Nat} {cg : Cage} (hc : s.cages c = some cg) {p : Str} {pl : Place}
    (hp : p ≠ []) (ha : At s cg p pl) : (step s c (.rmdir p)).2 = { ret := rmdirAnswer s pl } := by
  obtain ⟨r, hr, hf⟩ := ha.found h hc
  simp only [step, hc, nonEmpty, if_neg hp, State.onFs, Out.r]
  cases hf with
  | root => simp only [Fs.rmdir, hr, rmdirAnswer]
  | nowhere => simp only [Fs.rmdir, hr, rmdirAnswer]
  | free => simp only [Fs.rmdir, hr, rmdirAnswer]
  | object e w w' hpd hd hl hf hg hi h1 h7 hne =>
    rename_i i d ps n pd nd
    simp only [rmdirAnswer, ne_eq, kindOf_dir hi, modeOf_eq hpd, modeOf_eq hi]
    by_cases hz : pd.mode &&& 0o222#32 = 0#32
    · simp [Fs.rmdir, hr, hpd, hd, sIWALL, hz]
    · cases hnd : nd.isDir with
      | false => simp [Fs.rmdir, hr, hpd, hd, sIWALL, hz, hi, hnd]
      | true =>
        have he := empty_iff h hi hnd h7
        by_cases hl3 : nd.link > 3
        · have : ¬ Empty s i := fun x => by have := he.1 x; omega
          simp [Fs.rmdir, hr, hpd, hd, sIWALL, hz, hi, hnd, hl3, this]
        · have : Empty s i := he.2 (by omega)
          by_cases hm : nd.mode &&& 0o170000#32 = 0o40000#32
          · have hmd : modeIsDir nd.mode = true := by simpa [modeIsDir, sFileType, sIFDIR] using hm
            by_cases hw : nd.mode &&& 0o222#32 = 0#32
            · simp [Fs.rmdir, hr, hpd, hd, sIWALL, hz, hi, hnd, hl3, this, hm, hmd, hw]
            · rw [e] at hr ⊢
              obtain ⟨fs', q, -⟩ := rmdir_eq hr hpd hd hi hnd hf hne hz (by omega) hmd hw
              simp [q, hz, this, hm, hw]
          · have hmd : modeIsDir nd.mode = false := by
              cases hb : modeIsDir nd.mode with
              | false => rfl
              | true => exact absurd (by simpa [modeIsDir, sFileType, sIFDIR] using hb) hm
            simp [Fs.rmdir, hr, hpd, hd, sIWALL, hz, hi, hnd, hl3, this, hm, hmd]

theorem link_answer {s : State} (h : Reach s) {c : Nat} {cg : Cage} (hc : s.cages c = some cg) {o n : Str} {a b : Place}
    (ho : o ≠ []) (hn : n ≠ []) (ha : At s cg o a) (hb : At s cg n b) :
    (step s c (.link o n)).2 = { ret := linkAnswer s a b } := by
  obtain ⟨r, hr, hf⟩ := ha.found h hc
  obtain ⟨r2, hr2, hf2⟩ := hb.found h hc
  simp only [step, hc, nonEmpty, if_neg ho, if_neg hn, State.onFs, Out.r]
  have hlast : b ≠ .root → ∃ x, (cg.path n).getLast? = some x := by
    intro hb'
    cases hx : (cg.path n).getLast? with
    | some x => exact ⟨x, rfl⟩
    | none =>
      have : cg.path n = [] := by simpa using hx
      exact absurd (place_unique h hb (show At s cg n .root from this)) hb'
  cases hf2 with
  | root e => simp only [e, Fs.link, List.getLast?_nil]; cases a <;> rfl
  | nowhere hne2 =>
    obtain ⟨x, hx⟩ := hlast (by simp)
    cases hf with
    | root e =>
      obtain ⟨nd, h1, h2⟩ := h.inv.fs.tree.root
      simp [Fs.link, hx, hr, h1, h2, linkAnswer]
    | nowhere => simp [Fs.link, hx, hr, linkAnswer]
    | free => simp [Fs.link, hx, hr, linkAnswer]
    | object e w w' hpd hd hl hf hg hi h1 h7 hne =>
      rename_i i d ps n pd nd
      simp only [linkAnswer, kindOf_dir hi]
      cases hnd : nd.isDir with
      | true => simp [Fs.link, hx, hr, hi, hnd]
      | false =>
        simp [Fs.link, hx, hr, hi, hnd, walk_set hi (nd' := { nd with link := nd.link + 1 }) rfl rfl, hr2]
  | object e2 w2 w2' hpd2 hd2 hl2 hf2 hg2 hi2 h12 h72 hne2 =>
    obtain ⟨x, hx⟩ := hlast (by simp)
    cases hf with
    | root e =>
      obtain ⟨nd, h1, h2⟩ := h.inv.fs.tree.root
      simp [Fs.link, hx, hr, h1, h2, linkAnswer]
    | nowhere => simp [Fs.link, hx, hr, linkAnswer]
    | free => simp [Fs.link, hx, hr, linkAnswer]
    | object e w w' hpd hd hl hf hg hi h1 h7 hne =>
      rename_i i d ps n pd nd
      simp only [linkAnswer, kindOf_dir hi]
      cases hnd : nd.isDir with
      | true => simp [Fs.link, hx, hr, hi, hnd]
      | false =>
        simp [Fs.link, hx, hr, hi, hnd, walk_set hi (nd' := { nd with link := nd.link + 1 }) rfl rfl, hr2]
  | free e2 w2 hpd2 hd2 hl2 hf2 hg2 =>
    obtain ⟨x, hx⟩ := hlast (by simp)
    cases hf with
    | root e =>
      obtain ⟨nd, h1, h2⟩ := h.inv.fs.tree.root
      simp [Fs.link, hx, hr, h1, h2, linkAnswer]
    | nowhere => simp [Fs.link, hx, hr, linkAnswer]
    | free => simp [Fs.link, hx, hr, linkAnswer]
    | object e w w' hpd hd hl hf hg hi h1 h7 hne =>
      rename_i d2 ps2 n2 pd2 i d ps n pd nd
      simp only [linkAnswer, kindOf_dir hi]
      cases hnd : nd.isDir with
      | true => simp [Fs.link, hx, hr, hi, hnd]
      | false =>
        have hne2 : d2 ≠ i := by
          rintro rfl; rw [hi] at hpd2; cases hpd2; rw [hd2] at hnd; cases hnd
        have hset : (s.fs.set i (some { nd with link := nd.link + 1 })).inodes d2 = some pd2 := by
          simp [Fs.set, hne2, hpd2]
        simp [Fs.link, hx, hr, hi, hnd, walk_set hi (nd' := { nd with link := nd.link + 1 }) rfl rfl, hr2, hset, hd2]

theorem rename_answer {s : State} (h : Reach s) {c : Nat} {cg : Cage} (hc : s.cages c = some cg) {o n : Str} {a b : Place}
    (ho : o ≠ []) (hn : n ≠ []) (ha : At s cg o a) (hb : At s cg n b) :
    (step s c (.rename o n)).2 = { ret := renameAnswer a b } := by
  obtain ⟨r, hr, hf⟩ := ha.found h hc
  obtain ⟨r2, hr2, hf2⟩ := hb.found h hc
  simp only [step, hc, nonEmpty, if_neg ho, if_neg hn, State.onFs, Out.r]
  cases hf with
  | root e => simp only [Fs.rename, hr]; cases b <;> rfl
  | nowhere => simp only [Fs.rename, hr]; cases b <;> rfl
  | free => simp only [Fs.rename, hr]; cases b <;> rfl
  | object e w w' hpd hd hl hf hg hi h1 h7 hne =>
    rename_i i d ps m pd nd
    cases hf2 with
    | root e2 => simp [Fs.rename, hr, hr2, renameAnswer]
    | nowhere hne2 => simp [Fs.rename, hr, hr2, renameAnswer]
    | object e2 w2 w2' hpd2 hd2 hl2 hf2 hg2 hi2 h12 h72 hne2 =>
      rename_i i2 d2 ps2 m2 pd2 nd2
      simp only [renameAnswer]
      by_cases hdd : d = d2
      · subst hdd
        rw [e] at hr ⊢
        rw [e2] at hr2 ⊢
        obtain ⟨fs', q, -⟩ := rename_eq hr hr2 hpd hd
        simp [q]
      · simp [Fs.rename, hr, hr2, hdd, Ne.symm hdd]
    | free e2 w2 hpd2 hd2 hl2 hf2 hg2 =>
      rename_i d2 ps2 m2 pd2
      simp only [renameAnswer]
      by_cases hdd : d = d2
      · subst hdd
        rw [e] at hr ⊢
        rw [e2] at hr2 ⊢
        obtain ⟨fs', q, -⟩ := rename_eq hr hr2 hpd hd
        simp [q]
      · simp [Fs.rename, hr, hr2, hdd, Ne.symm hdd]

/-- The object at a place, as the lookup gives it. -/
theorem Found.obj {s : State} (h : Reach s) {cg : Cage} {p : Str} {pl : Place} {r : Option Nat × Option Nat}
    (hf : Found s cg p pl r) : pl.obj = r.1 ∧ ∀ i, r.1 = some i → i ≠ 7 ∧ ∃ nd, s.fs.inodes i = some nd := by
  cases hf with
  | root =>
    obtain ⟨nd, h1, h2⟩ := h.inv.fs.tree.root
    exact ⟨rfl, by rintro i rfl'; cases rfl'; exact ⟨by decide, nd, h1⟩⟩
  | object e w w' hpd hd hl hf hg hi h1 h7 hne => exact ⟨rfl, by rintro i rfl'; cases rfl'; exact ⟨h7, _, hi⟩⟩
  | free => exact ⟨rfl, by simp⟩
  | nowhere => exact ⟨rfl, by simp⟩

theorem chmod_answer {s : State} (h : Reach s) {c : Nat} {cg : Cage} (hc : s.cages c = some cg) {p : Str} {pl : Place}
    (ha : At s cg p pl) (mode : BitVec 32) : (step s c (.chmod p mode)).2 = { ret := chmodAnswer mode pl } := by
  obtain ⟨⟨o, par⟩, hr, hf⟩ := ha.found h hc
  obtain ⟨e, hex⟩ := hf.obj h
  simp only [step, hc, State.onFs, Out.r, Fs.chmod, hr, chmodAnswer, e]
  cases o with
  | none => rfl
  | some i =>
    obtain ⟨-, nd, hi⟩ := hex i rfl
    simp only [Fs.chmodIno, sIRWXA, hi]
    split <;> rfl

theorem chdir_answer {s : State} (h : Reach s) {c : Nat} {cg : Cage} (hc : s.cages c = some cg) {p : Str} {pl : Place}
    (ha : At s cg p pl) : (step s c (.chdir p)).2 = { ret := chdirAnswer s pl } := by
  obtain ⟨⟨o, par⟩, hr, hf⟩ := ha.found h hc
  obtain ⟨e, hex⟩ := hf.obj h
  simp only [step, hc, chdir, hr, chdirAnswer, e]
  cases o with
  | none => rfl
  | some i =>
    obtain ⟨-, nd, hi⟩ := hex i rfl
    simp only [hi, kindOf_dir hi]
    split <;> rfl

theorem truncate_answer {s : State} (h : Reach s) {c : Nat} {cg : Cage} (hc : s.cages c = some cg) {p : Str} {pl : Place}
    (ha : At s cg p pl) (len : Int) : (step s c (.truncate p len)).2 = { ret := truncateAnswer s len pl } := by
  obtain ⟨⟨o, par⟩, hr, hf⟩ := ha.found h hc
  obtain ⟨e, hex⟩ := hf.obj h
  simp only [step, hc, State.onFs, Out.r, Fs.truncate, hr, truncateAnswer, e]
  cases o with
  | none => rfl
  | some i =>
    obtain ⟨-, nd, hi⟩ := hex i rfl
    simp only [kindOf_eq hi]
    by_cases hl : len < 0
    · simp [Fs.truncIno, hl]
    · cases hk : nd.kind with
      | dir => simp [Fs.truncIno, hl, hi, hk]
      | chr d => simp [Fs.truncIno, hl, hi, hk]
      | sock => simp [Fs.truncIno, hl, hi, hk]
      | file =>
        obtain ⟨fs', this, -⟩ := truncIno_done h.inv (i := i) (size := nd.size) ⟨nd, hi, hk, rfl⟩ (len := len.toNat) false (by simp)
        have hlen : ((len.toNat : Nat) : Int) = len := Int.toNat_of_nonneg (by omega)
        rw [hlen] at this
        simp [this, hl]

/-- C62.  `open`: with a free descriptor, the answer is the error of the table, or the descriptor. -/
theorem open_answer {s : State} (h : Reach s) {c : Nat} {cg : Cage} (hc : s.cages c = some cg) {p : Str} {pl : Place}
    (hp : p ≠ []) (ha : At s cg p pl) (flags mode : BitVec 32) {fd : Nat} (hfd : nextFd cg.fds 0 = some fd) :
    (step s c (.openP p flags mode)).2 =
      { ret := match openAnswer s flags mode pl with | some e => .err e | none => .ok fd } := by
  obtain ⟨⟨o, par⟩, hr, hf⟩ := ha.found h hc
  simp only [step, hc, openSys, if_neg hp, hfd, Fs.openP, hr]
  have key : ∀ i nd, s.fs.inodes i = some nd → i ≠ 7 → ∀ e : Option Errno,
      e = (if flags &&& 0o300#32 = 0o300#32 then some .EEXIST else if kindOf s i = some .sock then some .ENXIO else none) →
      (match s.fs.openExisting i flags with
        | (fs, .failed r) => (({ s with fs := fs } : State), Out.r r)
        | (fs, .opened i size) => (({ s with fs := fs } : State).setFd c fd (some (newDesc i size flags)), .r (.ok fd))).2 =
      { ret := match e with | some e => .err e | none => .ok fd } := by
    rintro i nd hi h7 e rfl
    have hk := kindOf_eq hi
    by_cases hx : flags &&& 0o300#32 = 0o300#32
    · have hx' : flags &&& (oCREAT ||| oEXCL) = oCREAT ||| oEXCL := hx
      simp only [Fs.openExisting, if_pos hx', if_pos hx, Out.r]
    · have hx' : ¬ flags &&& (oCREAT ||| oEXCL) = oCREAT ||| oEXCL := hx
      by_cases hs : nd.kind = .sock
      · simp only [Fs.openExisting, if_neg hx', if_neg hx, hi, hs, hk, if_true, Out.r]
      · rw [if_neg hx, hk, if_neg (by simpa using hs)]
        rcases h.inv.fs.openExisting hi h7 flags with ⟨r, hr, hr'⟩ | ⟨fs', sz, hr, -⟩
        · simp only [Fs.openExisting, if_neg hx', hi] at hr
          exfalso
          have hloc := h.inv.fs.loc i
          rw [hi] at hloc
          cases hkk : nd.kind with
          | sock => exact hs hkk
          | dir => simp [hkk] at hr
          | chr d => simp [hkk] at hr
          | file =>
            simp only [LocalAt, hkk] at hloc
            obtain ⟨⟨d, hd, -⟩, -⟩ := hloc
            simp only [hkk, hd] at hr
            split at hr <;> simp at hr
        · simp only [hr, Out.r]
  cases hf with
  | root =>
    obtain ⟨nd, h1, h2⟩ := h.inv.fs.tree.root
    refine key rootIno nd h1 (by decide) _ ?_
    have : ¬ kindOf s rootIno = some .sock := by
      rw [kindOf_eq h1, isDir_iff.1 h2]; simp
    simp only [openAnswer, if_neg this]
  | object e w w' hpd hd hl hf hg hi h1 h7 hne => exact key _ _ hi h7 _ rfl
  | nowhere => rfl
  | free e w hpd hd hl hf hg =>
    rename_i d ps n pd
    obtain ⟨fs', g0, -⟩ := create_eq n (fun _ => newFile mode) hpd hd
    simp only [openAnswer, ← saneMode_iff]
    by_cases hcr : flags &&& 0o100#32 = 0#32
    · have hcr' : flags &&& oCREAT = 0 := hcr
      simp only [if_pos hcr, if_pos hcr', Out.r]
    have hcr' : ¬ flags &&& oCREAT = 0 := hcr
    by_cases hch : flags &&& 0o20000#32 = 0o20000#32
    · have hch' : flags &&& sIFCHR = sIFCHR := hch
      simp only [if_neg hcr, if_neg hcr', if_pos hch, if_pos hch', Out.r]
    have hch' : ¬ flags &&& sIFCHR = sIFCHR := hch
    simp only [if_neg hcr, if_neg hcr', if_neg hch, if_neg hch']
    cases hm : saneMode mode
    · simp [Out.r]
    · simp [e, getLast_snoc, g0, Out.r]

/-! ## C62: what the calls that make names do -/

theorem made_of_create {s : State} (h : Reach s) {d : Nat} {pd nd0 : Inode} {n : Name} {fs' : Fs}
    (hpd : s.fs.inodes d = some pd) (hd : pd.isDir) (hfree : entGet pd.ents n = none)
    (e1 : fs'.inodes = upd (upd s.fs.inodes d (some { pd with ents := entPut pd.ents n s.fs.next, link := pd.link + 1 }))
      s.fs.next (some nd0)) (e2 : fs'.disk = s.fs.disk) :
    Made s { s with fs := fs' } d n s.fs.next nd0 := by
  obtain ⟨n1, -⟩ := h.inv.fs.next_none
  have hne : d ≠ s.fs.next := by rintro rfl; rw [n1] at hpd; cases hpd
  have hd' : fs'.inodes d = some { pd with ents := entPut pd.ents n s.fs.next, link := pd.link + 1 } := by
    rw [e1, upd_ne _ _ hne, upd_same]
  refine ⟨n1, by simp only [e1, upd_same], ?_, ⟨pd, _, hpd, hd', rfl⟩, ?_, ?_, rfl⟩
  · intro k j
    rw [entry_iff (s := { s with fs := fs' }) hd', entry_iff hpd]
    simp only [mem_entPut]
    constructor
    · rintro (x | ⟨x, -⟩)
      · exact .inl x
      · exact .inr x
    · rintro (x | x)
      · exact .inl x
      · exact .inr ⟨x, by rintro rfl; exact absurd x (entGet_none.1 hfree j)⟩
  · intro x hx hx'; simp only [e1, upd_ne _ _ hx', upd_ne _ _ hx]
  · intro x; simp only [bytes, e2]

/-- C62.  A successful `mkdir` makes a directory with the entries `.` (itself) and `..` (the directory holding it) and
the given permissions under that name, and does nothing else. -/
theorem mkdir_effect {s : State} (h : Reach s) {c : Nat} {cg : Cage} (hc : s.cages c = some cg) {p : Str} {mode : BitVec 32}
    {v : Int} (hok : (step s c (.mkdir p mode)).2.ret = .ok v) :
    ∃ d n i, At s cg p (.free d n) ∧ Leads (step s c (.mkdir p mode)).1 cg p i ∧
      Made s (step s c (.mkdir p mode)).1 d n i
        { kind := .dir, mode := 0o40000#32 ||| mode, size := 0, link := 3, ref := 0, ents := [([46], i), ([46, 46], d)] } := by
  by_cases hp : p = []
  · subst hp; rw [empty_path s hc mode 0 0 [] _ (by simp : Op.mkdir [] mode ∈ _)] at hok; cases hok
  obtain ⟨pl, r, hr, hat, hf⟩ := found_exists h hc p
  rw [mkdir_answer h hc hp hat] at hok
  cases hf with
  | root => cases hok
  | object => cases hok
  | nowhere => cases hok
  | free e w hpd hd hl hfree hg =>
    rename_i d ps n pd
    obtain ⟨fs', g0, g1, g2, g3, g4, -⟩ := create_eq n (fun new =>
          { kind := .dir, mode := sIFDIR ||| mode, size := 0, link := 3, ref := 0, ents := initEnts new d }) hpd hd
    have hm : saneMode mode = true := by
      rw [saneMode_iff]
      simp only [mkdirAnswer] at hok
      split at hok
      · assumption
      · cases hok
    obtain ⟨n1, -⟩ := h.inv.fs.next_none
    refine ⟨d, n, s.fs.next, hat, ?_⟩
    rw [e] at hr
    simp only [step, hc, nonEmpty, if_neg hp, State.onFs, Fs.mkdir, hr, hm, Bool.not_true, Bool.false_eq_true, if_false,
      e, getLast_snoc, g0]
    refine ⟨?_, made_of_create h hpd hd hfree g1 g4⟩
    unfold Leads
    rw [e]; simp only [g1]
    exact walk_grow_new hpd n1 (pd' := { pd with ents := entPut pd.ents n s.fs.next, link := pd.link + 1 }) hd rfl hfree w

/-- C62.  A successful `mknod` makes a character device with the given mode word and device number under that name, and
does nothing else. -/
theorem mknod_effect {s : State} (h : Reach s) {c : Nat} {cg : Cage} (hc : s.cages c = some cg) {p : Str} {mode : BitVec 32}
    {dev : BitVec 64} {v : Int} (hok : (step s c (.mknod p mode dev)).2.ret = .ok v) :
    mode &&& 0o20000#32 ≠ 0#32 ∧
    ∃ d n i, At s cg p (.free d n) ∧ Leads (step s c (.mknod p mode dev)).1 cg p i ∧
      Made s (step s c (.mknod p mode dev)).1 d n i
        { kind := .chr (DevNo.devtuple dev), mode := mode, size := 0, link := 1, ref := 0, ents := [] } := by
  by_cases hp : p = []
  · subst hp; rw [empty_path s hc mode 0 dev [] _ (by simp : Op.mknod [] mode dev ∈ _)] at hok; cases hok
  obtain ⟨pl, r, hr, hat, hf⟩ := found_exists h hc p
  rw [mknod_answer h hc hp hat] at hok
  cases hf with
  | root => cases hok
  | object => cases hok
  | nowhere => cases hok
  | free e w hpd hd hl hfree hg =>
    rename_i d ps n pd
    obtain ⟨fs', g0, g1, g2, g3, g4, -⟩ := create_eq n (fun _ =>
          { kind := .chr (DevNo.devtuple dev), mode := mode, size := 0, link := 1, ref := 0, ents := [] }) hpd hd
    simp only [mknodAnswer] at hok
    split at hok
    · rename_i hm
      split at hok
      · cases hok
      · rename_i hz
        have hz' : ¬ mode &&& sIFCHR = 0 := hz
        rw [← saneMode_iff] at hm
        obtain ⟨n1, -⟩ := h.inv.fs.next_none
        refine ⟨hz, d, n, s.fs.next, hat, ?_⟩
        rw [e] at hr
        simp only [step, hc, nonEmpty, if_neg hp, State.onFs, Fs.mknod, hr, hm, Bool.not_true, Bool.false_eq_true, if_false,
          e, getLast_snoc, g0, hz']
        refine ⟨?_, made_of_create h hpd hd hfree g1 g4⟩
        unfold Leads
        rw [e]; simp only [g1]
        exact walk_grow_new hpd n1 (pd' := { pd with ents := entPut pd.ents n s.fs.next, link := pd.link + 1 }) hd rfl hfree w
    · cases hok

/-- C62.  A successful `link` gives the object one more name, in the directory of the new path, and counts it; it
does nothing else. -/
theorem link_effect {s : State} (h : Reach s) {c : Nat} {cg : Cage} (hc : s.cages c = some cg) {o n : Str}
    {v : Int} (hok : (step s c (.link o n)).2.ret = .ok v) :
    let s' := (step s c (.link o n)).1
    ∃ d k d' k' i nd pd', At s cg o (.object d k i) ∧ At s cg n (.free d' k') ∧ At s' cg n (.object d' k' i) ∧
      s.fs.inodes i = some nd ∧ nd.kind ≠ .dir ∧ s'.fs.inodes i = some { nd with link := nd.link + 1 } ∧
      s.fs.inodes d' = some pd' ∧
      s'.fs.inodes d' = some { pd' with link := pd'.link + 1, ents := entries s' d' } ∧
      (∀ m j, Entry s' d' m j ↔ (m = k' ∧ j = i) ∨ Entry s d' m j) ∧
      (∀ x, x ≠ d' → x ≠ i → s'.fs.inodes x = s.fs.inodes x) ∧
      (∀ x, bytes s' x = bytes s x) ∧ s'.cages = s.cages := by
  by_cases ho : o = []
  · subst ho; rw [empty_path s hc 0 0 0 n _ (by simp : Op.link [] n ∈ _)] at hok; cases hok
  by_cases hn : n = []
  · subst hn; rw [empty_path s hc 0 0 0 o _ (by simp : Op.link o [] ∈ _)] at hok; cases hok
  obtain ⟨pl, r, hr, hat, hf⟩ := found_exists h hc o
  obtain ⟨pl2, r2, hr2, hat2, hf2⟩ := found_exists h hc n
  rw [link_answer h hc ho hn hat hat2] at hok
  cases hf2 with
  | root => cases pl <;> cases hok
  | object =>
    cases hf with
    | object => simp only [linkAnswer] at hok; split at hok <;> cases hok
    | root => cases hok
    | free => cases hok
    | nowhere => cases hok
  | nowhere =>
    cases hf with
    | object => simp only [linkAnswer] at hok; split at hok <;> cases hok
    | root => cases hok
    | free => cases hok
    | nowhere => cases hok
  | free e2 w2 hpd2 hd2 hl2 hfree2 hg2 =>
    rename_i d2 ps2 n2 pd2
    cases hf with
    | root => cases hok
    | free => cases hok
    | nowhere => cases hok
    | object e w w' hpd hd hl hf hg hi h1 h7 hne =>
      rename_i i d ps k pd nd
      have hnd : nd.isDir = false := by
        simp only [linkAnswer, kindOf_dir hi] at hok
        cases hx : nd.isDir with
        | false => rfl
        | true => rw [hx] at hok; simp at hok
      have hne2 : d2 ≠ i := by
        rintro rfl; rw [hi] at hpd2; cases hpd2; rw [hd2] at hnd; cases hnd
      have hset : (s.fs.set i (some { nd with link := nd.link + 1 })).inodes d2 = some pd2 := by
        simp [Fs.set, hne2, hpd2]
      have hq : step s c (.link o n) = ({ s with fs := (((s.fs.set i (some { nd with link := nd.link + 1 })).set d2
          (some { pd2 with ents := entPut pd2.ents n2 i, link := pd2.link + 1 })).logIno d2).logIno i }, { ret := .ok 0 }) := by
        rw [e2] at hr2
        simp only [step, hc, nonEmpty, if_neg ho, if_neg hn, State.onFs, Out.r, Fs.link, e2, getLast_snoc, hr, hi, hnd,
          Bool.false_eq_true, if_false, walk_set hi (nd' := { nd with link := nd.link + 1 }) rfl rfl, hr2, hset, hd2, if_true]
      rw [hq]
      have hi' : (upd (upd s.fs.inodes i (some { nd with link := nd.link + 1 })) d2
          (some { pd2 with ents := entPut pd2.ents n2 i, link := pd2.link + 1 })) i = some { nd with link := nd.link + 1 } := by
        rw [upd_ne _ _ hne2.symm, upd_same]
      have hent : ∀ m j, (m, j) ∈ entPut pd2.ents n2 i ↔ (m = n2 ∧ j = i) ∨ (m, j) ∈ pd2.ents := by
        intro m j
        simp only [mem_entPut]
        constructor
        · rintro (x | ⟨x, -⟩)
          · exact .inl x
          · exact .inr x
        · rintro (x | x)
          · exact .inl x
          · exact .inr ⟨x, by rintro rfl; exact absurd x (entGet_none.1 hfree2 j)⟩
      refine ⟨d, k, d2, n2, i, nd, pd2, hat, hat2, ⟨ps2, e2, ?_, ⟨_, upd_same .., isDir_iff.1 hd2⟩, ?_⟩, hi, ?_, hi',
        hpd2, ?_, ?_, ?_, fun _ => rfl, rfl⟩
      · refine w2.congr ?_
        intro x xd hx hxd
        simp only [Fs.logIno, Fs.set]
        by_cases ex : x = d2
        · subst ex; rw [hpd2] at hx; cases hx
          exact ⟨_, upd_same .., hd2, fun a ha => (hent a.1 a.2).2 (.inr ha)⟩
        · rw [upd_ne _ _ ex]
          by_cases ex' : x = i
          · subst ex'; rw [hi] at hx; cases hx; rw [hnd] at hxd; cases hxd
          · rw [upd_ne _ _ ex']; exact ⟨xd, hx, hxd, fun _ h => h⟩
      · simp only [Entry, entries, Fs.logIno, Fs.set, upd_same]
        exact (hent _ _).2 (.inl ⟨rfl, rfl⟩)
      · intro hk; rw [isDir_iff.2 hk] at hnd; cases hnd
      · simp only [entries, Fs.logIno, Fs.set, upd_same]
      · intro m j
        rw [entry_iff hpd2]
        simp only [Entry, entries, Fs.logIno, Fs.set, upd_same]
        exact hent m j
      · intro x hx hx'
        simp only [Fs.logIno, Fs.set, upd_ne _ _ hx, upd_ne _ _ hx']

end Verif.Kernel
