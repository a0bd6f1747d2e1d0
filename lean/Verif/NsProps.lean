import Verif.IoProps

/-!
# The name space: C13, C14, C15, C18, C19, C24, C25, C46, C51, C55, C56

Specifications are on following names through directory entries (`Fs.Walk`), on the entries of
directories and on what `stat` reports.
-/

namespace Verif.Kernel
open Verif.Path Verif.Fs
open Verif.Pipe (Pipe End)

set_option linter.unusedSimpArgs false

/-! ## Specification -/

/-- The path string `p`, used by a cage, leads to inode `i`: its normalised components, followed through directory
entries from the root, end there. -/
def Leads (s : State) (cg : Cage) (p : Str) (i : Nat) : Prop := Walk s.fs.inodes rootIno (cg.path p) i

/-- The entries of inode `d` (none unless it is a directory). -/
def entries (s : State) (d : Nat) : List (Name × Nat) :=
  match s.fs.inodes d with | none => [] | some nd => nd.ents

/-- `.` or `..`. -/
def isDots (n : Name) : Bool := n == [46] || n == [46, 46]

/-- How many directory entries, over all directories, name inode `i`. -/
def numNames (s : State) (i : Nat) : Nat :=
  ((List.range s.fs.next).map (fun d => (entries s d).countP (fun e => e.2 == i && !isDots e.1))).sum

/-- Inode `i` is a directory. -/
def IsDir (s : State) (i : Nat) : Prop := ∃ nd, s.fs.inodes i = some nd ∧ nd.kind = .dir

/-! ## Lemmas -/

theorem isDots_iff (n : Name) : isDots n = false ↔ Proper n := by
  simp [isDots, Proper, dot, dotdot]

theorem numNames_eq (s : State) (i : Nat) : numNames s i = nameCount s.fs.inodes s.fs.next i := by
  unfold numNames nameCount
  rw [sumTo_range]
  congr 2
  funext d
  simp only [entries, namesIn]
  cases s.fs.inodes d with
  | none => rfl
  | some nd =>
    simp only [nm]
    congr 1
    funext e
    have := isDots_iff e.1
    by_cases h : Proper e.1
    · simp [h, this.2 h, Bool.beq_eq_decide_eq]
    · cases hb : isDots e.1
      · exact absurd (this.1 hb) h
      · simp [h]

theorem Inv.gp {s : State} (h : Inv s []) {c : Nat} {cg : Cage} (hc : s.cages c = some cg) (p : Str) :
    GoodPath (cg.path p) := (path_spec (h.cage c cg hc).2.2 p).1

theorem Inv.walk_found {s : State} (h : Inv s []) {c : Nat} {cg : Cage} {p : Str} {i : Nat}
    (hc : s.cages c = some cg) (hp : Leads s cg p i) :
    ∃ par, s.fs.walk (cg.path p) = some (some i, par) ∧ Look s.fs (cg.path p) (some i, par) := by
  obtain ⟨r, hr, hlook⟩ := look h.fs.tree (cg.path p) (h.gp hc p)
  unfold Leads at hp
  cases hlook with
  | root e => rw [e] at hp; cases hp; exact ⟨_, hr, .root e⟩
  | found a b w d e f g k l m n o =>
    have := walk_fun h.fs.tree w hp; subst this
    exact ⟨_, hr, .found a b w d e f g k l m n o⟩
  | free _ _ _ _ _ _ _ hno => exact absurd hp (hno i)
  | gone _ _ hno => exact absurd hp (hno i)

theorem Inv.walk_missing {s : State} (h : Inv s []) {c : Nat} {cg : Cage} {p : Str}
    (hc : s.cages c = some cg) (hp : ∀ i, ¬ Leads s cg p i) :
    ∃ par, s.fs.walk (cg.path p) = some (none, par) ∧ Look s.fs (cg.path p) (none, par) := by
  obtain ⟨r, hr, hlook⟩ := look h.fs.tree (cg.path p) (h.gp hc p)
  unfold Leads at hp
  cases hlook with
  | root e => exact absurd (e ▸ Walk.here _) (hp rootIno)
  | found _ _ w => exact absurd w (hp _)
  | free a b d e f g k l => exact ⟨_, hr, .free a b d e f g k l⟩
  | gone a b d => exact ⟨_, hr, .gone a b d⟩

theorem Inv.leads_exists {s : State} (h : Inv s []) {c : Nat} {cg : Cage} {p : Str} {i : Nat}
    (hc : s.cages c = some cg) (hp : Leads s cg p i) : ∃ nd, s.fs.inodes i = some nd :=
  Walk.exists h.fs.tree hp (fun n hn => Good.proper (h.gp hc p n hn))
    (by obtain ⟨nd, h1, -⟩ := h.fs.tree.root; exact ⟨nd, h1⟩)

/-! ## C18 -/

/-- C18.  `stat` answers with the inode that the path leads to, and says ENOENT exactly if it leads to none; so a path
leads to at most one inode, and lookup never aborts. -/
theorem lookup_exact {s : State} (h : Reach s) {c : Nat} {cg : Cage} (hc : s.cages c = some cg) (p : Str) :
    (∀ i, Leads s cg p i ↔ ∃ st, (step s c (.stat p)).2 = { ret := .ok 0, stat := some st } ∧ st.ino = i) ∧
    ((∀ i, ¬ Leads s cg p i) ↔ (step s c (.stat p)).2 = { ret := .err .ENOENT }) := by
  by_cases hex : ∃ i, Leads s cg p i
  · obtain ⟨i, hi⟩ := hex
    obtain ⟨par, hr, -⟩ := h.inv.walk_found hc hi
    obtain ⟨nd, hnd⟩ := h.inv.leads_exists hc hi
    have he : (step s c (.stat p)).2 = { ret := .ok 0, stat := some (statOf i nd) } := by
      simp only [step, hc, Fs.stat, hr, hnd]
    rw [he]
    refine ⟨?_, ?_⟩
    · intro j
      constructor
      · intro hj; exact ⟨_, rfl, walk_fun h.inv.fs.tree hi hj⟩
      · rintro ⟨st, e, rfl⟩
        simp only [Out.mk.injEq, Option.some.injEq, true_and, and_true] at e
        rw [← e]; exact hi
    · constructor
      · intro hn; exact absurd hi (hn i)
      · intro e; simp at e
  · have hno : ∀ i, ¬ Leads s cg p i := fun i hi => hex ⟨i, hi⟩
    obtain ⟨par, hr, -⟩ := h.inv.walk_missing hc hno
    have he : (step s c (.stat p)).2 = { ret := .err .ENOENT } := by
      simp only [step, hc, Fs.stat, hr]
    rw [he]
    refine ⟨?_, ⟨fun _ => rfl, fun _ => hno⟩⟩
    intro i
    constructor
    · intro hi; exact absurd hi (hno i)
    · rintro ⟨st, e, -⟩; simp at e

/-- C18.  The parent the lookup reports is the directory that holds (or would hold) the last name, and there is
none exactly for the root or if the names before the last do not lead to a directory. -/
theorem lookup_parent {s : State} (h : Reach s) {c : Nat} {cg : Cage} (hc : s.cages c = some cg) (p : Str) :
    ∃ o par, s.fs.walk (cg.path p) = some (o, par) ∧ (∀ i, o = some i ↔ Leads s cg p i) ∧
    ∀ d, par = some d ↔ ∃ ns n, cg.path p = ns ++ [n] ∧ Walk s.fs.inodes rootIno ns d ∧ IsDir s d := by
  obtain ⟨r, hr, hlook⟩ := look h.inv.fs.tree (cg.path p) (h.inv.gp hc p)
  obtain ⟨o, par⟩ := r
  refine ⟨o, par, hr, ?_, ?_⟩
  · intro i
    unfold Leads
    cases hlook with
    | root e =>
      rw [e]
      exact ⟨fun e' => by cases e'; exact .here _, fun w => by cases w; rfl⟩
    | found _ _ w =>
      exact ⟨fun e' => by cases e'; exact w, fun w' => by rw [walk_fun h.inv.fs.tree w w']⟩
    | free _ _ _ _ _ _ _ hno => exact ⟨fun e' => by (cases e'), fun w => absurd w (hno i)⟩
    | gone _ _ hno => exact ⟨fun e' => by (cases e'), fun w => absurd w (hno i)⟩
  · intro d
    have uniq : ∀ {ps ns : List Name} {n m : Name} {a b : Nat}, cg.path p = ps ++ [n] → cg.path p = ns ++ [m] →
        Walk s.fs.inodes rootIno ps a → Walk s.fs.inodes rootIno ns b → a = b := by
      intro ps ns n m a b e1 e2 w1 w2
      rw [e1] at e2
      have := List.append_inj' e2 rfl
      rw [this.1] at w1
      exact walk_fun h.inv.fs.tree w1 w2
    cases hlook with
    | root e =>
      refine ⟨fun e' => by (cases e'), ?_⟩
      rintro ⟨ns, n, e', -⟩; rw [e] at e'; simp at e'
    | found e w _ hp hd =>
      refine ⟨fun e' => ?_, ?_⟩
      · cases e'; exact ⟨_, _, e, w, _, hp, isDir_iff.1 hd⟩
      · rintro ⟨ns, n, e', w', -⟩; rw [uniq e e' w w']
    | free e w hp hd =>
      refine ⟨fun e' => ?_, ?_⟩
      · cases e'; exact ⟨_, _, e, w, _, hp, isDir_iff.1 hd⟩
      · rintro ⟨ns, n, e', w', -⟩; rw [uniq e e' w w']
    | gone e hg =>
      refine ⟨fun e' => by (cases e'), ?_⟩
      rintro ⟨ns, n, e', w', nd, h1, h2⟩
      have := hg ns n d nd e' w' h1
      rw [isDir_iff.2 h2] at this; cases this

/-! ## C55 -/

/-- C55.  Every directory a path leads to: its entries designate existing objects, its names are unique, `.`
is itself and `..` is the directory above (the root for the root). -/
theorem directories_well_formed {s : State} (h : Reach s) {ns : List Name} {d : Nat} {nd : Inode}
    (hns : ∀ n ∈ ns, isDots n = false)
    (hw : Walk s.fs.inodes rootIno ns d) (hi : s.fs.inodes d = some nd) (hk : nd.kind = .dir) :
    (∀ n j, (n, j) ∈ nd.ents → ∃ jd, s.fs.inodes j = some jd) ∧
    (nd.ents.map Prod.fst).Nodup ∧
    ([46], d) ∈ nd.ents ∧
    ∃ e, ([46, 46], e) ∈ nd.ents ∧ IsDir s e ∧ (ns = [] → e = rootIno) ∧
      ∀ ms n, ns = ms ++ [n] → Walk s.fs.inodes rootIno ms e := by
  have T := h.inv.fs.tree
  have hd := isDir_iff.2 hk
  have hnd := T.nodup hi
  have hpr : ∀ n ∈ ns, Proper n := fun n hn => (isDots_iff n).1 (hns n hn)
  have h7 : d ≠ 7 := by
    rcases List.eq_nil_or_concat ns with e | ⟨ms, n, e⟩
    · subst e; cases hw; decide
    · rw [List.concat_eq_append] at e; subst e
      obtain ⟨e', x, w, g1, g2, g3⟩ := hw.split
      exact (T.ent g1 g3 (hpr n (by simp))).2.2.1
  obtain ⟨hdot, e, hdd, her⟩ := T.dots hi hd h7
  -- the directory above
  have hup : IsDir s e ∧ (ns = [] → e = rootIno) ∧ ∀ ms n, ns = ms ++ [n] → Walk s.fs.inodes rootIno ms e := by
    rcases List.eq_nil_or_concat ns with e' | ⟨ms, n, e'⟩
    · subst e'
      cases hw
      have := her rfl; subst this
      obtain ⟨x, h1, h2⟩ := T.root
      exact ⟨⟨x, h1, isDir_iff.1 h2⟩, fun _ => rfl, fun ms n e => by simp at e⟩
    · rw [List.concat_eq_append] at e'; subst e'
      obtain ⟨a, x, w, g1, g2, g3⟩ := hw.split
      obtain ⟨-, -, -, jd, j1, j2⟩ := T.ent g1 g3 (hpr n (by simp))
      rw [hi] at j1; cases j1
      have := (j2 hd).1
      rw [hdd] at this; cases this
      refine ⟨⟨x, g1, isDir_iff.1 g2⟩, by simp, ?_⟩
      intro ms' n' e
      have := List.append_inj' e rfl
      rw [← this.1]; exact w
  refine ⟨?_, hnd, entGet_mem hdot, e, entGet_mem hdd, hup⟩
  intro n j hm
  by_cases hp : Proper n
  · obtain ⟨-, -, -, jd, j1, -⟩ := T.ent hi hm hp; exact ⟨jd, j1⟩
  · by_cases h1 : n = dot
    · subst h1
      have := (entGet_iff hnd).2 hm
      rw [hdot] at this; cases this; exact ⟨nd, hi⟩
    · by_cases h2 : n = dotdot
      · subst h2
        have := (entGet_iff hnd).2 hm
        rw [hdd] at this; cases this
        obtain ⟨x, g, -⟩ := hup.1; exact ⟨x, g⟩
      · exact absurd ⟨h1, h2⟩ hp

/-! ## C14 -/

/-- C14.  The link count of anything but a directory is the number of directory entries that name it. -/
theorem nlink_is_names {s : State} (h : Reach s) {i : Nat} {nd : Inode} (hi : s.fs.inodes i = some nd)
    (hk : nd.kind ≠ .dir) : nd.link = numNames s i := by
  rw [numNames_eq]
  exact h.inv.fs.tree.flink hi (by
    cases hb : nd.isDir
    · rfl
    · exact absurd (isDir_iff.1 hb) hk)

/-- C14.  The link count of a directory is the number of its entries plus one (inode 7, which `format` leaves behind
and no path or descriptor designates, is the exception). -/
theorem nlink_dir {s : State} (h : Reach s) {i : Nat} {nd : Inode} (hi : s.fs.inodes i = some nd)
    (hk : nd.kind = .dir) (h7 : i ≠ 7) : nd.link = nd.ents.length + 1 :=
  h.inv.fs.tree.dlink hi (isDir_iff.2 hk) h7

/-- C14.  What `stat` reports. -/
theorem stat_nlink {s : State} (h : Reach s) {c : Nat} {cg : Cage} (hc : s.cages c = some cg) {p : Str} {st : Stat}
    (hst : (step s c (.stat p)).2.stat = some st) :
    ∃ nd, s.fs.inodes st.ino = some nd ∧ st.nlink = nd.link ∧
      (nd.kind ≠ .dir → st.nlink = numNames s st.ino) ∧ (nd.kind = .dir → st.nlink = (entries s st.ino).length + 1) := by
  by_cases hex : ∃ i, Leads s cg p i
  · obtain ⟨i, hi⟩ := hex
    obtain ⟨par, hr, hlook⟩ := h.inv.walk_found hc hi
    obtain ⟨nd, hnd⟩ := h.inv.leads_exists hc hi
    simp only [step, hc, Fs.stat, hr, hnd, Option.some.injEq] at hst
    subst hst
    refine ⟨nd, hnd, rfl, fun hk => nlink_is_names h hnd hk, fun hk => ?_⟩
    have h7 : i ≠ 7 := by
      cases hlook with
      | root => decide
      | found _ _ _ _ _ _ _ _ _ _ h7 => exact h7
    simp only [statOf, entries, hnd]
    exact nlink_dir h hnd hk h7
  · obtain ⟨par, hr, -⟩ := h.inv.walk_missing hc (fun i hi => hex ⟨i, hi⟩)
    simp only [step, hc, Fs.stat, hr] at hst
    cases hst

/-! ## C13 -/

/-- C13.  The open references recorded for a file or device are its descriptors, over all cages. -/
theorem refs_are_descriptors {s : State} (h : Reach s) {i : Nat} {nd : Inode} (hi : s.fs.inodes i = some nd)
    (hk : nd.kind ≠ .dir) (hs : nd.kind ≠ .sock) : nd.ref = countSlots s.cages (isFileOf i) := by
  have hl := h.inv.fs.loc i
  rw [hi] at hl
  rw [← cagesW_count (.ino i) s.cages _ (slotW_ino i)]
  have : tot s [] (.ino i) = cagesW (.ino i) s.cages := by simp only [tot, handW, Nat.add_zero]
  rw [← this]
  simp only [LocalAt] at hl
  cases hkk : nd.kind <;> simp only [hkk] at hl
  · exact hl.2.2.1
  · exact absurd hkk hk
  · exact hl.2.2.1
  · exact absurd hkk hs

/-- C13.  A file or device exists only while it has a name or an open descriptor; and what has a name or an open descriptor
exists.  Partial: a directory that is removed while it is open stays forever (`rmdir_open_violated`). -/
theorem exists_iff_named_or_open_partial {s : State} (h : Reach s) (i : Nat) :
    (∀ nd, s.fs.inodes i = some nd → nd.kind ≠ .dir → nd.kind ≠ .sock →
      0 < numNames s i ∨ 0 < countSlots s.cages (isFileOf i)) ∧
    (0 < numNames s i ∨ 0 < countSlots s.cages (isFileOf i) → ∃ nd, s.fs.inodes i = some nd) := by
  constructor
  · intro nd hi hk hs
    rw [← nlink_is_names h hi hk, ← refs_are_descriptors h hi hk hs]
    have hl := h.inv.fs.loc i
    rw [hi] at hl
    simp only [LocalAt] at hl
    cases hkk : nd.kind <;> simp only [hkk] at hl
    · exact hl.2.2.2
    · exact absurd hkk hk
    · exact hl.2.2.2
    · exact absurd hkk hs
  · intro hn
    cases hi : s.fs.inodes i with
    | some nd => exact ⟨nd, rfl⟩
    | none =>
      exfalso
      rw [numNames_eq, nameCount_fresh h.inv.fs.tree hi, ← cagesW_count (.ino i) s.cages _ (slotW_ino i)] at hn
      have hl := h.inv.fs.loc i
      rw [hi] at hl
      have : tot s [] (.ino i) = 0 := hl.2.2
      simp only [tot, handW] at this
      omega

/-! ## C25 -/

/-- The calls C25 is about. -/
def isNamespaceCall : Op → Bool
  | .openP .. | .mkdir .. | .mknod .. | .link .. | .unlink .. | .rmdir .. | .rename .. | .chmod .. => true
  | _ => false

theorem onFs_err {s : State} {r : Fs × Ret} {e : Errno} (h : r.2 = .err e → r.1 = s.fs)
    (he : (s.onFs r).2.ret = .err e) : (s.onFs r).1 = s := by
  simp only [State.onFs, Out.r] at he ⊢
  rw [h he]

theorem nonEmpty_err {p : Str} {s : State} {r : State × Out} {e : Errno} (h : r.2.ret = .err e → r.1 = s)
    (he : (nonEmpty p s r).2.ret = .err e) : (nonEmpty p s r).1 = s := by
  simp only [nonEmpty] at he ⊢
  split
  · rfl
  · rename_i hp; rw [if_neg hp] at he; exact h he

theorem openExisting_err (fs : Fs) (i : Nat) (flags : BitVec 32) {r : Ret}
    (h : (fs.openExisting i flags).2 = .failed r) : (fs.openExisting i flags).1 = fs := by
  generalize hx : fs.openExisting i flags = x at h ⊢
  simp only [Fs.openExisting] at hx
  repeat' split at hx
  all_goals subst hx
  all_goals first | rfl | cases h

theorem openP_err (fs : Fs) (p : List Name) (flags mode : BitVec 32) {r : Ret}
    (h : (fs.openP p flags mode).2 = .failed r) : (fs.openP p flags mode).1 = fs := by
  generalize hx : fs.openP p flags mode = x at h ⊢
  simp only [Fs.openP] at hx
  repeat' split at hx
  all_goals subst hx
  all_goals first
    | rfl
    | exact openExisting_err _ _ _ h
    | cases h

theorem mkdir_err (fs : Fs) (p : List Name) (mode : BitVec 32) {e : Errno}
    (h : (fs.mkdir p mode).2 = .err e) : (fs.mkdir p mode).1 = fs := by
  generalize hx : fs.mkdir p mode = x at h ⊢
  simp only [Fs.mkdir] at hx
  repeat' split at hx
  all_goals subst hx
  all_goals first | rfl | cases h

theorem mknod_err (fs : Fs) (p : List Name) (mode : BitVec 32) (dev : BitVec 64) {e : Errno}
    (h : (fs.mknod p mode dev).2 = .err e) : (fs.mknod p mode dev).1 = fs := by
  generalize hx : fs.mknod p mode dev = x at h ⊢
  simp only [Fs.mknod] at hx
  repeat' split at hx
  all_goals subst hx
  all_goals first | rfl | cases h

theorem rename_err (fs : Fs) (o n : List Name) {e : Errno}
    (h : (fs.rename o n).2 = .err e) : (fs.rename o n).1 = fs := by
  generalize hx : fs.rename o n = x at h ⊢
  simp only [Fs.rename] at hx
  repeat' split at hx
  all_goals subst hx
  all_goals first | rfl | cases h

theorem chmod_err (fs : Fs) (p : List Name) (mode : BitVec 32) {e : Errno}
    (h : (fs.chmod p mode).2 = .err e) : (fs.chmod p mode).1 = fs := by
  generalize hx : fs.chmod p mode = x at h ⊢
  simp only [Fs.chmod, Fs.chmodIno] at hx
  repeat' split at hx
  all_goals subst hx
  all_goals first | rfl | cases h

theorem link_err (fs : Fs) (o n : List Name) {e : Errno}
    (h : (fs.link o n).2 = .err e) : (fs.link o n).1 = fs := by
  have hundo : ∀ (i : Nat) (nd : Inode), fs.inodes i = some nd →
      (fs.set i (some { nd with link := nd.link + 1 })).set i (some { nd with link := nd.link + 1 - 1 }) = fs := by
    intro i nd hi
    simp only [Fs.set, upd_upd, Nat.add_sub_cancel]
    have : upd fs.inodes i (some nd) = fs.inodes := by rw [← hi]; exact upd_self _ _
    rw [this]
  generalize hx : fs.link o n = x at h ⊢
  simp only [Fs.link] at hx
  repeat' split at hx
  all_goals subst hx
  all_goals first
    | rfl
    | (cases h; done)
    | (apply hundo; assumption)

theorem rmdir_err {fs : Fs} {cnt} (hf : FsInv fs cnt) {p : List Name} (hp : GoodPath p) {e : Errno}
    (h : (fs.rmdir p).2 = .err e) : (fs.rmdir p).1 = fs := by
  obtain ⟨r, hr, hlook⟩ := look hf.tree p hp
  generalize hx : fs.rmdir p = x at h ⊢
  simp only [Fs.rmdir, hr] at hx
  cases hlook with
  | root => subst hx; rfl
  | gone => subst hx; rfl
  | free => subst hx; rfl
  | found heq w w' hpar hd hl hf hg hi h1 h7 hne =>
    rename_i i par ps n pd nd
    subst heq
    simp only [hpar, hi] at hx
    have hset : ∀ x, (if nd.ref = 0 then fs.set i x else fs).inodes par = some pd := by
      intro x; split
      · simp [Fs.set, hne.symm, hpar]
      · exact hpar
    by_cases hw : pd.mode &&& sIWALL = 0
    · simp only [hd, hw, and_self, if_true] at hx; subst hx; rfl
    · simp only [hw, and_false, if_false, Fs.removeFromParent, hset, hd, if_true, getLast_snoc, hf] at hx
      repeat' split at hx
      all_goals subst hx
      all_goals first | rfl | cases h

theorem unlink_err {fs : Fs} {cnt} (hf : FsInv fs cnt) {p : List Name} (hp : GoodPath p)
    (ht : UnlinkTame fs p) {e : Errno} (h : (fs.unlink p).2 = .err e) : (fs.unlink p).1 = fs := by
  obtain ⟨r, hr, hlook⟩ := look hf.tree p hp
  generalize hx : fs.unlink p = x at h ⊢
  simp only [Fs.unlink, hr] at hx
  cases hlook with
  | root => subst hx; rfl
  | gone => subst hx; rfl
  | free => subst hx; rfl
  | found heq w w' hpar hd hl hf hg hi h1 h7 hne =>
    rename_i i par ps n pd nd
    have hw := ht i par pd hr hpar
    subst heq
    have hset : (fs.set i (some { nd with link := nd.link - 1 })).inodes par = some pd := by
      simp [Fs.set, hne.symm, hpar]
    simp only [hi, Fs.removeFromParent, hset, hd, if_true, hw, if_false, getLast_snoc, hf] at hx
    repeat' split at hx
    all_goals subst hx
    all_goals first | rfl | cases h

/-- C25.  A namespace call that returns an error leaves the whole state as it was.  Partial: for `unlink` the directory
that holds the name must be writable (`failed_unlink_violated`). -/
theorem failed_call_changes_nothing_partial {s : State} (h : Reach s) {c : Nat} {op : Op} {e : Errno}
    (hop : isNamespaceCall op = true)
    (ht : ∀ cg p ns n d nd, s.cages c = some cg → op = .unlink p → cg.path p = ns ++ [n] →
      Walk s.fs.inodes rootIno ns d → s.fs.inodes d = some nd → nd.mode &&& 0o222#32 ≠ 0#32)
    (he : (step s c op).2.ret = .err e) : (step s c op).1 = s := by
  cases hc : s.cages c with
  | none => simp only [step, hc]
  | some cg =>
    simp only [step, hc] at he ⊢
    cases op <;> first | (cases hop; done) | skip
    case openP p fl m =>
      simp only [openSys] at he ⊢
      split
      · rfl
      rename_i hp
      rw [if_neg hp] at he
      split
      · rfl
      rename_i fd hn
      rw [hn] at he
      simp only at he
      split
      · rename_i fs r hr
        have := openP_err s.fs (cg.path p) fl m (r := r) (by rw [hr])
        rw [hr] at this
        simp only at this
        rw [this]
      · rename_i hr
        rw [hr] at he
        cases he
    case mkdir p m => exact nonEmpty_err (onFs_err (mkdir_err _ _ _)) he
    case mknod p m d => exact nonEmpty_err (onFs_err (mknod_err _ _ _ _)) he
    case link o n => exact nonEmpty_err (nonEmpty_err (onFs_err (link_err _ _ _))) he
    case rename o n => exact nonEmpty_err (nonEmpty_err (onFs_err (rename_err _ _ _))) he
    case chmod p m => exact onFs_err (chmod_err _ _ _) he
    case rmdir p => exact nonEmpty_err (onFs_err (rmdir_err h.inv.fs (h.inv.gp hc p))) he
    case unlink p =>
      refine nonEmpty_err (onFs_err (unlink_err h.inv.fs (h.inv.gp hc p) ?_)) he
      intro i par pd hr hpar
      obtain ⟨r, hr', hlook⟩ := look h.inv.fs.tree (cg.path p) (h.inv.gp hc p)
      rw [hr] at hr'
      cases hr'
      cases hlook with
      | found heq w => exact ht cg p _ _ par pd hc rfl heq w hpar

/-- Only what `Walk` looks at. -/
theorem _root_.Verif.Fs.Walk.congr {a b : Nat → Option Inode}
    (h : ∀ d nd, a d = some nd → nd.isDir → ∃ nd', b d = some nd' ∧ nd'.isDir ∧ ∀ e, e ∈ nd.ents → e ∈ nd'.ents)
    {d i : Nat} {ns : List Name} (hw : Walk a d ns i) : Walk b d ns i := by
  induction hw with
  | here => exact .here _
  | down x y z _ ih =>
    obtain ⟨nd', x', y', z'⟩ := h _ _ x y
    exact .down x' y' (z' _ z) ih

theorem unlink_err_inodes (fs : Fs) (p : List Name) {e : Errno} (h : (fs.unlink p).2 = .err e) :
    (fs.unlink p).1 = fs ∨ ∃ i nd, fs.inodes i = some nd ∧
      (fs.unlink p).1 = fs.set i (some { nd with link := nd.link - 1 }) := by
  generalize hx : fs.unlink p = x at h ⊢
  simp only [Fs.unlink, Fs.removeFromParent] at hx
  repeat' split at hx
  all_goals subst hx
  all_goals try exact .inl rfl
  all_goals try (cases h; done)
  all_goals
    rename_i hrm
    repeat' split at hrm
    all_goals cases hrm
    all_goals first
      | exact .inr ⟨_, _, by assumption, rfl⟩
      | cases h

/-- C25.  Whatever fails, also an `unlink` in a directory that is not writable: every path leads where it led. -/
theorem failed_call_keeps_paths {s : State} (h : Reach s) {c : Nat} {op : Op} {e : Errno}
    (hop : isNamespaceCall op = true) (he : (step s c op).2.ret = .err e) (d i : Nat) (ns : List Name) :
    Walk (step s c op).1.fs.inodes d ns i ↔ Walk s.fs.inodes d ns i := by
  have hmain : (step s c op).1 = s ∨ ∃ j nd, s.fs.inodes j = some nd ∧
      (step s c op).1.fs.inodes = upd s.fs.inodes j (some { nd with link := nd.link - 1 }) := by
    by_cases hu : ∃ p, op = .unlink p
    · obtain ⟨p, rfl⟩ := hu
      cases hc : s.cages c with
      | none => left; simp only [step, hc]
      | some cg =>
        simp only [step, hc, nonEmpty] at he ⊢
        by_cases hp : p = []
        · left; rw [if_pos hp]
        · rw [if_neg hp] at he ⊢
          rcases unlink_err_inodes _ _ he with h1 | ⟨j, nd, h1, h2⟩
          · left; simp only [State.onFs, h1]
          · right; exact ⟨j, nd, h1, by simp only [State.onFs, h2, Fs.set]⟩
    · left
      exact failed_call_changes_nothing_partial h hop
        (fun _ p _ _ _ _ _ e => absurd ⟨p, e⟩ hu) he
  rcases hmain with h1 | ⟨j, nd, h1, h2⟩
  · rw [h1]
  · rw [h2]
    constructor
    · apply Walk.congr
      intro d x hd hx
      by_cases ed : d = j
      · subst ed; rw [upd_same] at hd; cases hd; exact ⟨nd, h1, hx, fun _ h => h⟩
      · rw [upd_ne _ _ ed] at hd; exact ⟨x, hd, hx, fun _ h => h⟩
    · apply Walk.congr
      intro d x hd hx
      by_cases ed : d = j
      · subst ed; rw [h1] at hd; cases hd; exact ⟨_, upd_same .., hx, fun _ h => h⟩
      · exact ⟨x, by rw [upd_ne _ _ ed]; exact hd, hx, fun _ h => h⟩

/-! ## C56 -/

theorem want_bits : ∀ a b c : Bool, ∀ k < 32,
    ((if a then 0o100#32 else 0) ||| (if b then 0o200#32 else 0) ||| (if c then 0o400#32 else 0)).getLsbD k =
      ((a && k == 6) || (b && k == 7) || (c && k == 8)) := by decide

theorem and_one_bit (m : BitVec 32) (k : Nat) (hk : k < 3) :
    (m &&& (1#32 <<< k) = 1#32 <<< k) ↔ m.getLsbD k = true := by
  constructor
  · intro h
    have := congrArg (fun x => x.getLsbD k) h
    simp only [BitVec.getLsbD_and] at this
    have h1 : (1#32 <<< k).getLsbD k = true := by
      rcases (by omega : k = 0 ∨ k = 1 ∨ k = 2) with rfl | rfl | rfl <;> decide
    rw [h1] at this; simpa using this
  · intro h
    apply BitVec.eq_of_getLsbD_eq
    intro j hj
    rw [BitVec.getLsbD_and]
    by_cases e : j = k
    · subst e; rw [h]; simp
    · have : (1#32 <<< k).getLsbD j = false := by
        rcases (by omega : k = 0 ∨ k = 1 ∨ k = 2) with rfl | rfl | rfl <;>
        · revert j; decide
      rw [this]; simp

theorem access_decides {mode amode : BitVec 32} :
    (let want := (if amode &&& 1#32 = 1#32 then 0o100#32 else 0) |||
        (if amode &&& 2#32 = 2#32 then 0o200#32 else 0) |||
        (if amode &&& 4#32 = 4#32 then 0o400#32 else 0)
     mode &&& want = want) ↔ ∀ k < 3, amode.getLsbD k = true → mode.getLsbD (6 + k) = true := by
  have b0 := and_one_bit amode 0 (by omega)
  have b1 := and_one_bit amode 1 (by omega)
  have b2 := and_one_bit amode 2 (by omega)
  simp only [show (1#32 <<< 0) = 1#32 from by decide, show (1#32 <<< 1) = 2#32 from by decide,
    show (1#32 <<< 2) = 4#32 from by decide] at b0 b1 b2
  simp only [b0, b1, b2]
  generalize h0 : amode.getLsbD 0 = a
  generalize h1 : amode.getLsbD 1 = b
  generalize h2 : amode.getLsbD 2 = c
  have hb := want_bits a b c
  generalize ((if a then 0o100#32 else 0) ||| (if b then 0o200#32 else 0) ||| (if c then 0o400#32 else 0)) = w at *
  constructor
  · intro h k hk ha
    have := congrArg (fun x => x.getLsbD (6 + k)) h
    simp only [BitVec.getLsbD_and] at this
    rw [hb (6 + k) (by omega)] at this
    rcases (by omega : k = 0 ∨ k = 1 ∨ k = 2) with rfl | rfl | rfl
    · rw [h0] at ha; subst ha; simpa using this
    · rw [h1] at ha; subst ha; simpa using this
    · rw [h2] at ha; subst ha; simpa using this
  · intro h
    apply BitVec.eq_of_getLsbD_eq
    intro j hj
    rw [BitVec.getLsbD_and]
    cases hw : w.getLsbD j
    · simp
    · rw [hb j hj] at hw
      simp only [Bool.or_eq_true, Bool.and_eq_true, beq_iff_eq] at hw
      rcases hw with (⟨e, rfl⟩ | ⟨e, rfl⟩) | ⟨e, rfl⟩
      · simpa using h 0 (by omega) (by rw [h0, e])
      · simpa using h 1 (by omega) (by rw [h1, e])
      · simpa using h 2 (by omega) (by rw [h2, e])

/-- C56.  `access` succeeds exactly if the path leads to an object whose owner bits include every requested
bit (read 4, write 2, execute 1 are bits 2, 1, 0 of the argument and 8, 7, 6 of the mode); otherwise it is ENOENT or
EACCES; the state stays. -/
theorem access_iff {s : State} (h : Reach s) {c : Nat} {cg : Cage} (hc : s.cages c = some cg) (p : Str)
    (amode : BitVec 32) :
    let r := step s c (.access p amode)
    r.1 = s ∧
    (r.2.ret = .ok 0 ↔ ∃ i nd, Leads s cg p i ∧ s.fs.inodes i = some nd ∧
      ∀ k < 3, amode.getLsbD k = true → nd.mode.getLsbD (6 + k) = true) ∧
    (r.2.ret = .err .ENOENT ↔ ∀ i, ¬ Leads s cg p i) ∧
    (r.2.ret = .ok 0 ∨ r.2.ret = .err .ENOENT ∨ r.2.ret = .err .EACCES) := by
  simp only [step, hc, Out.r]
  refine ⟨trivial, ?_⟩
  by_cases hex : ∃ i, Leads s cg p i
  · obtain ⟨i, hi⟩ := hex
    obtain ⟨par, hr, -⟩ := h.inv.walk_found hc hi
    obtain ⟨nd, hnd⟩ := h.inv.leads_exists hc hi
    have hA := access_decides (mode := nd.mode) (amode := amode)
    simp only [Fs.access, hr, hnd]
    have huniq : (∃ j jd, Leads s cg p j ∧ s.fs.inodes j = some jd ∧
        ∀ k < 3, amode.getLsbD k = true → jd.mode.getLsbD (6 + k) = true) ↔
        ∀ k < 3, amode.getLsbD k = true → nd.mode.getLsbD (6 + k) = true := by
      constructor
      · rintro ⟨j, jd, hj, hjd, hb⟩
        have := walk_fun h.inv.fs.tree hi hj; subst this
        rw [hnd] at hjd; cases hjd; exact hb
      · intro hb; exact ⟨i, nd, hi, hnd, hb⟩
    rw [huniq, ← hA]
    simp only
    generalize ((if amode &&& 1#32 = 1#32 then 0o100#32 else 0) |||
        (if amode &&& 2#32 = 2#32 then 0o200#32 else 0) |||
        (if amode &&& 4#32 = 4#32 then 0o400#32 else 0)) = w
    split
    · rename_i hb
      exact ⟨⟨fun _ => hb, fun _ => rfl⟩, ⟨fun e => (by cases e), fun hn => absurd hi (hn i)⟩, .inl rfl⟩
    · rename_i hb
      exact ⟨⟨fun e => (by cases e), fun e => absurd e hb⟩, ⟨fun e => (by cases e), fun hn => absurd hi (hn i)⟩,
        .inr (.inr rfl)⟩
  · have hno : ∀ i, ¬ Leads s cg p i := fun i hi => hex ⟨i, hi⟩
    obtain ⟨par, hr, -⟩ := h.inv.walk_missing hc hno
    simp only [Fs.access, hr]
    refine ⟨⟨fun e => (by cases e), ?_⟩, ⟨fun _ => hno, fun _ => trivial⟩, by simp⟩
    rintro ⟨i, _, hi, -⟩; exact absurd hi (hno i)

/-- Bits that a mode argument may have: permission and file type. -/
def ModeValid (mode : BitVec 32) : Prop := mode &&& 0o170777#32 = mode

theorem saneMode_iff (mode : BitVec 32) : saneMode mode = true ↔ ModeValid mode := by
  simp [saneMode, ModeValid, sIRWXA, sFileType]

/-- C56.  `mkdir`, `mknod` and a creating `open` of a name that is free, with other mode bits: EPERM, and nothing is
created.  (The name is given by `mkdir` with a valid mode succeeding.) -/
theorem bad_mode_eperm {s : State} {c : Nat} {cg : Cage} (hc : s.cages c = some cg) {p : Str} {mode : BitVec 32}
    (hm : ¬ ModeValid mode) (hok : (step s c (.mkdir p 0o777#32)).2.ret = .ok 0) (dev : BitVec 64) (flags : BitVec 32) :
    step s c (.mkdir p mode) = (s, { ret := .err .EPERM }) ∧
    step s c (.mknod p mode dev) = (s, { ret := .err .EPERM }) ∧
    (flags &&& 0o100#32 ≠ 0#32 → flags &&& 0o20000#32 = 0#32 → (∃ fd, fd < 1024 ∧ cg.fds fd = none) →
      step s c (.openP p flags mode) = (s, { ret := .err .EPERM })) := by
  have hm' : saneMode mode = false := by
    cases hb : saneMode mode
    · rfl
    · exact absurd ((saneMode_iff _).1 hb) hm
  simp only [step, hc, nonEmpty] at hok ⊢
  by_cases hp : p = []
  · rw [if_pos hp] at hok; cases hok
  rw [if_neg hp] at hok
  simp only [if_neg hp, openSys]
  have hfree : ∃ par, s.fs.walk (cg.path p) = some (none, some par) := by
    simp only [State.onFs, Out.r, Fs.mkdir] at hok
    split at hok
    · cases hok
    · cases hok
    · cases hok
    · rename_i par hw; exact ⟨par, hw⟩
  obtain ⟨par, hw⟩ := hfree
  refine ⟨?_, ?_, ?_⟩
  · simp only [Fs.mkdir, hw, hm', Bool.not_false, if_true, State.onFs, Out.r]
  · simp only [Fs.mknod, hw, hm', Bool.not_false, if_true, State.onFs, Out.r]
  · intro h1 h2 ⟨fd, hfd, hfree⟩
    cases hn : nextFd cg.fds 0 with
    | none => exact absurd hfree (nextFd_none hn fd (Nat.zero_le _) hfd)
    | some fd' =>
      have h1' : ¬ (flags &&& oCREAT = 0) := h1
      have h2' : ¬ (flags &&& sIFCHR = sIFCHR) := by
        intro e; rw [show flags &&& sIFCHR = 0#32 from h2] at e; revert e; decide
      simp only [Fs.openP, hw, h1', h2', if_false, hm', Bool.not_false, if_true, Out.r]

end Verif.Kernel
