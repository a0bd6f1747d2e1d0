import Verif.StatBuf
import Verif.NsProps
import Verif.HistProps

/-!
# What stat and fstat tell a caller about a file (C86)
-/

namespace Verif.StatBuf
open Verif.Fs Verif.Kernel Verif.Path

set_option linter.unusedSimpArgs false

/-! ## Specification -/

/-- What POSIX lets a caller read in the buffer about the file `nd` with number `i`, except the times, and for devices the block
counts.  Files, directories and sockets live on device 20, have no device number of their own and report no blocks. -/
structure Says (b : Buf) (i : Nat) (nd : Inode) : Prop where
  ino : b.ino = i
  dev : b.dev = match nd.kind with | .chr _ => 5 | _ => 20
  mode : b.mode = nd.mode
  nlink : b.nlink = nd.link
  owner : b.uid = 1000 ∧ b.gid = 1000
  size : b.size = nd.size
  rdev : b.rdev = match nd.kind with | .chr d => DevNo.makedev d.1 d.2 | _ => 0
  blocks : (∀ d, nd.kind ≠ .chr d) → b.blksize = 0 ∧ b.blocks = 0

/-- The times in a buffer. -/
def times (b : Buf) : (Nat × Nat) × (Nat × Nat) × (Nat × Nat) := (b.atim, b.mtim, b.ctim)

/-- The file type in a mode, as `S_ISFIFO` and the like look at it. -/
def fileType (m : BitVec 32) : BitVec 32 := m &&& 0o170000#32

/-! ## Lemmas -/

theorem fill_says {b : Buf} {i : Nat} {nd : Inode} (hi : b.ino = i) (hd : b.dev = devId) : Says (fill nd b) i nd := by
  cases hk : nd.kind <;> refine ⟨?_, ?_, ?_, ?_, ?_, ?_, ?_, ?_⟩ <;> simp [fill, fillChr, fillPlain, hk, hi, hd, devId, defaultId]

theorem fill_times (nd : Inode) (b : Buf) : times (fill nd b) = times b := by
  cases hk : nd.kind <;> simp [fill, fillChr, fillPlain, hk, times]

theorem stat_found {s : State} (h : Reach s) {c : Nat} {cg : Cage} (hc : s.cages c = some cg) {p : Str} {i : Nat} (hl : Leads s cg p i)
    (b : Buf) : ∃ nd, s.fs.inodes i = some nd ∧ stat s cg p b = (fill nd { b with dev := devId, ino := i }, .ok 0) := by
  obtain ⟨par, hr, -⟩ := h.inv.walk_found hc hl
  obtain ⟨nd, hnd⟩ := h.inv.leads_exists hc hl
  exact ⟨nd, hnd, by simp only [stat, hr, hnd]⟩

theorem stat_missing {s : State} (h : Reach s) {c : Nat} {cg : Cage} (hc : s.cages c = some cg) {p : Str} (hl : ∀ i, ¬ Leads s cg p i)
    (b : Buf) : stat s cg p b = (b, .err .ENOENT) := by
  obtain ⟨par, hr, -⟩ := h.inv.walk_missing hc hl
  simp only [stat, hr]

theorem open_exists {s : State} (h : Reach s) {c fd i pos : Nat} {f : BitVec 32} (ho : OpenOn s c fd i pos f) :
    ∃ nd, s.fs.inodes i = some nd := by
  obtain ⟨-, cg, hc, hd⟩ := ho
  have hh := h.inv.file_held hc hd
  cases hi : s.fs.inodes i with
  | some nd => exact ⟨nd, rfl⟩
  | none =>
    have := h.inv.fs.loc i
    rw [hi] at this
    simp only [LocalAt] at this
    omega

/-- A number below the counter designates the same file for ever. -/
theorem run_kind {s : State} (h : List (Nat × Op)) {i : Nat} {nd' : Inode} (hi : i < s.fs.next)
    (hx : (run s h).fs.inodes i = some nd') : ∃ nd, s.fs.inodes i = some nd ∧ nd'.kind = nd.kind := by
  induction h generalizing s with
  | nil => exact ⟨nd', hx, rfl⟩
  | cons x h ih =>
    obtain ⟨c, op⟩ := x
    have he := step_evo s c op
    obtain ⟨nd1, h1, k1⟩ := ih (s := (step s c op).1) (Nat.lt_of_lt_of_le hi he.next) hx
    rcases he.old i nd1 h1 with ⟨nd, h2, k2, -⟩ | h2
    · exact ⟨nd, h2, k1.trans k2⟩
    · omega

theorem run_next (s : State) (h : List (Nat × Op)) : s.fs.next ≤ (run s h).fs.next := by
  induction h generalizing s with
  | nil => exact Nat.le_refl _
  | cons x h ih => exact Nat.le_trans (step_evo s x.1 x.2).next (ih _)

theorem fstat_found {s : State} (h : Reach s) {c fd i pos : Nat} {f : BitVec 32} {cg : Cage} (hc : s.cages c = some cg)
    (ho : OpenOn s c fd i pos f) (b : Buf) :
    ∃ nd, s.fs.inodes i = some nd ∧ fstat s cg fd b = (fill nd { b with dev := devId, ino := i }, .ok 0) := by
  obtain ⟨nd, hnd⟩ := open_exists h ho
  obtain ⟨cg', hc', hg, -⟩ := ho.get
  rw [hc] at hc'; cases hc'
  exact ⟨nd, hnd, by simp only [fstat, hg, hnd]⟩

/-! ## C86 -/

/-- C86.  stat of a path that leads to a file succeeds and stores the number, device, kind, permissions, links, owner, length and
device number of exactly that file.  If the path leads nowhere, it fails with ENOENT and leaves the buffer as it was. -/
theorem stat_says {s : State} (h : Reach s) {c : Nat} {cg : Cage} (hc : s.cages c = some cg) (p : Str) (b : Buf) :
    (∀ i, Leads s cg p i → (stat s cg p b).2 = .ok 0 ∧ ∃ nd, s.fs.inodes i = some nd ∧ Says (stat s cg p b).1 i nd) ∧
    ((∀ i, ¬ Leads s cg p i) → stat s cg p b = (b, .err .ENOENT)) := by
  refine ⟨fun i hl => ?_, fun hl => stat_missing h hc hl b⟩
  obtain ⟨nd, h1, h2⟩ := stat_found h hc hl b
  rw [h2]
  exact ⟨rfl, nd, h1, fill_says rfl rfl⟩

/-- C86.  fstat of an open file does the same for the file it is open on – also if the file has no name any more. -/
theorem fstat_says {s : State} (h : Reach s) {c fd i pos : Nat} {f : BitVec 32} {cg : Cage} (hc : s.cages c = some cg)
    (ho : OpenOn s c fd i pos f) (b : Buf) :
    (fstat s cg fd b).2 = .ok 0 ∧ ∃ nd, s.fs.inodes i = some nd ∧ Says (fstat s cg fd b).1 i nd := by
  obtain ⟨nd, h1, h2⟩ := fstat_found h hc ho b
  rw [h2]
  exact ⟨rfl, nd, h1, fill_says rfl rfl⟩

/-- C86.  stat and fstat agree: a path that leads to the file a descriptor is open on gives the same buffer, field by field. -/
theorem fstat_is_stat {s : State} (h : Reach s) {c fd i pos : Nat} {f : BitVec 32} {cg : Cage} (hc : s.cages c = some cg)
    (ho : OpenOn s c fd i pos f) {c' : Nat} {cg' : Cage} (hc' : s.cages c' = some cg') {p : Str} (hl : Leads s cg' p i) (b : Buf) :
    fstat s cg fd b = stat s cg' p b := by
  obtain ⟨nd, h1, h2⟩ := fstat_found h hc ho b
  obtain ⟨nd', h1', h2'⟩ := stat_found h hc' hl b
  rw [h1] at h1'; cases h1'
  rw [h2, h2']

/-- C86.  Device and number tell files apart: two successful stats, by any processes, store the same pair exactly if the paths lead
to the same file. -/
theorem same_file_iff {s : State} (h : Reach s) {c c' : Nat} {cg cg' : Cage} (hc : s.cages c = some cg) (hc' : s.cages c' = some cg')
    {p q : Str} {b b' : Buf} (h1 : (stat s cg p b).2 = .ok 0) (h2 : (stat s cg' q b').2 = .ok 0) :
    ((stat s cg p b).1.dev = (stat s cg' q b').1.dev ∧ (stat s cg p b).1.ino = (stat s cg' q b').1.ino) ↔
      ∃ i, Leads s cg p i ∧ Leads s cg' q i := by
  have key : ∀ {c : Nat} {cg : Cage} {p : Str} {b : Buf}, s.cages c = some cg → (stat s cg p b).2 = .ok 0 →
      ∃ i nd, Leads s cg p i ∧ s.fs.inodes i = some nd ∧ Says (stat s cg p b).1 i nd := by
    intro c cg p b hc hs
    by_cases hex : ∃ i, Leads s cg p i
    · obtain ⟨i, hi⟩ := hex
      obtain ⟨-, nd, e1, e2⟩ := (stat_says h hc p b).1 i hi
      exact ⟨i, nd, hi, e1, e2⟩
    · rw [(stat_says h hc p b).2 (fun i hi => hex ⟨i, hi⟩)] at hs; cases hs
  obtain ⟨i, nd, l1, e1, s1⟩ := key hc h1
  obtain ⟨j, nd', l2, e2, s2⟩ := key hc' h2
  constructor
  · rintro ⟨-, hij⟩
    rw [s1.ino, s2.ino] at hij
    subst hij
    exact ⟨i, l1, l2⟩
  · rintro ⟨k, k1, k2⟩
    have a1 := walk_fun h.inv.fs.tree l1 k1
    have a2 := walk_fun h.inv.fs.tree l2 k2
    subst a1; subst a2
    rw [e1] at e2; cases e2
    rw [s1.dev, s2.dev, s1.ino, s2.ino]
    exact ⟨rfl, rfl⟩

/-- C86.  And they do so over time: if a later stat, after any calls, stores a number that was stored before, the file has existed all
the time between and is of the same kind. -/
theorem same_file_later {s : State} (h : Reach s) {c : Nat} {cg : Cage} (hc : s.cages c = some cg) {p : Str} {b : Buf}
    (h1 : (stat s cg p b).2 = .ok 0) (hist hist' : List (Nat × Op)) {cg' : Cage} {q : Str} {b' : Buf}
    (h2 : (stat (run s (hist ++ hist')) cg' q b').2 = .ok 0)
    (he : (stat (run s (hist ++ hist')) cg' q b').1.ino = (stat s cg p b).1.ino) :
    ∃ nd nd' nd'', s.fs.inodes (stat s cg p b).1.ino = some nd ∧ (run s hist).fs.inodes (stat s cg p b).1.ino = some nd' ∧
      (run s (hist ++ hist')).fs.inodes (stat s cg p b).1.ino = some nd'' ∧ nd'.kind = nd.kind ∧ nd''.kind = nd.kind := by
  have hex : ∃ i, Leads s cg p i := by
    by_cases hex : ∃ i, Leads s cg p i
    · exact hex
    · rw [(stat_says h hc p b).2 (fun i hi => hex ⟨i, hi⟩)] at h1; cases h1
  obtain ⟨i, hi⟩ := hex
  obtain ⟨-, nd, e1, e2⟩ := (stat_says h hc p b).1 i hi
  have hino : (stat s cg p b).1.ino = i := e2.ino
  rw [hino] at he ⊢
  have hlt : i < s.fs.next := h.inv.fs.tree.bound e1
  have hlate : ∃ nd'', (run s (hist ++ hist')).fs.inodes i = some nd'' := by
    generalize run s (hist ++ hist') = t at h2 he ⊢
    unfold stat at h2 he
    split at h2
    · cases h2
    · cases h2
    · rename_i k _ hw
      simp only [hw] at he
      split at h2
      · cases h2
      · rename_i nd' hk
        simp only [hk] at he
        have : k = i := by
          rw [← he]; cases hkk : nd'.kind <;> simp [fill, fillChr, fillPlain, hkk]
        subst this
        exact ⟨_, hk⟩
  obtain ⟨nd'', hl⟩ := hlate
  have hl' := hl
  rw [run_append] at hl'
  obtain ⟨nd', h3, k3⟩ := run_kind hist' (Nat.lt_of_lt_of_le hlt (run_next s hist)) hl'
  obtain ⟨nd0, h4, k4⟩ := run_kind hist hlt h3
  rw [e1] at h4; cases h4
  exact ⟨nd, nd', nd'', e1, h3, hl, k4, k3.trans k4⟩

/-- C86.  A call that fails leaves the buffer as it was; a call that succeeds does not look at what was in it, except that the
times – and for devices the block counts – stay. -/
theorem buffer_rest_partial (s : State) (cg : Cage) (p : Str) (fd : Int) (b : Buf) :
    ((stat s cg p b).2 ≠ .ok 0 → (stat s cg p b).1 = b) ∧ ((fstat s cg fd b).2 ≠ .ok 0 → (fstat s cg fd b).1 = b) ∧
    times (stat s cg p b).1 = times b ∧ times (fstat s cg fd b).1 = times b := by
  refine ⟨?_, ?_, ?_, ?_⟩
  · unfold stat; repeat' split
    all_goals simp
  · unfold fstat; repeat' split
    all_goals simp
  · unfold stat; repeat' split
    all_goals first | rfl | (rw [fill_times]; rfl)
  · unfold fstat; repeat' split
    all_goals first | rfl | (rw [fill_times]; rfl)

/-- C86.  The answers are those of the calls of the whole-system model, so everything proved about them holds of the buffer. -/
theorem stat_agrees (s : State) {c : Nat} {cg : Cage} (hc : s.cages c = some cg) (p : Str) (fd : Int) (b : Buf) :
    ((stat s cg p b).2 = (step s c (.stat p)).2.ret ∧
      ∀ st, (step s c (.stat p)).2.stat = some st → (stat s cg p b).1.ino = st.ino ∧ (stat s cg p b).1.mode = st.mode ∧
        (stat s cg p b).1.nlink = st.nlink ∧ (stat s cg p b).1.size = st.size ∧ (stat s cg p b).1.rdev = st.rdev) ∧
    ((fstat s cg fd b).2 = (step s c (.fstat fd)).2.ret ∧
      ∀ st, (step s c (.fstat fd)).2.stat = some st → (fstat s cg fd b).1.ino = st.ino ∧ (fstat s cg fd b).1.mode = st.mode ∧
        (fstat s cg fd b).1.nlink = st.nlink ∧ (fstat s cg fd b).1.size = st.size ∧ (fstat s cg fd b).1.rdev = st.rdev) := by
  constructor
  · simp only [step, hc, stat, Fs.stat]
    cases hw : s.fs.walk (cg.path p) with
    | none => simp
    | some r =>
      obtain ⟨o, par⟩ := r
      cases o with
      | none => simp
      | some i =>
        dsimp only
        cases hi : s.fs.inodes i with
        | none => simp
        | some nd => cases hk : nd.kind <;> simp [statOf, fill, fillChr, fillPlain, hk]
  · simp only [step, hc, fstat, Kernel.fstat]
    cases hg : getFd cg.fds fd with
    | none => simp [Out.r]
    | some o =>
      cases o with
      | none => simp [Out.r]
      | some d =>
        cases d with
        | file i pos f =>
          dsimp only
          cases hi : s.fs.inodes i with
          | none => simp [Out.r]
          | some nd => cases hk : nd.kind <;> simp [statOf, fill, fillChr, fillPlain, hk]
        | stream a f => simp [fillAlt, streamIno]
        | pipe a f => simp [fillAlt, pipeIno]
        | sock f => simp [Out.r]
        | epoll f => simp [fillAlt, pipeIno]

/-! ## The hypotheses are met -/

/-- Cage 0 of the initial state. -/
def cage0 : Cage := { fds := initTable, cwd := [slash], parent := 0 }
/-- A buffer with something in it. -/
def junk : Buf :=
  ⟨7, 7, 7, 7, 7, 7, 7, 7, 7, 7, (7, 7), (7, 7), (7, 7)⟩
/-- `/b`, `/c`, `/dev` and `/dev/null`. -/
def pB : Str := [47, 98]
def pC : Str := [47, 99]
def pDev : Str := [47, 100, 101, 118]
def pNull : Str := [47, 100, 101, 118, 47, 110, 117, 108, 108]

/-- `/a` is made, written and linked as `/b`. -/
def linked : State := run init [(0, .openP pA 0o102#32 0o666#32), (0, .write 3 [1, 2, 3]), (0, .link pA pB)]

theorem linked_reach : Reach linked := Reach.init.run _ (by decide +kernel)

/-- The cage that made it. -/
def cageL : Cage := match linked.cages 0 with | some cg => cg | none => cage0

theorem linked_cage : linked.cages 0 = some cageL := rfl

/-- In that state the descriptor is open on a file, both names lead to it, `stat` succeeds and tells its length and links. -/
example : Reach linked ∧ linked.cages 0 = some cageL ∧ OpenOn linked 0 3 9 3 2#32 ∧ (stat linked cageL pA junk).2 = .ok 0 ∧
    (stat linked cageL pB junk).2 = .ok 0 ∧ (stat linked cageL pA junk).1.size = 3 ∧ (stat linked cageL pA junk).1.nlink = 2 ∧
    (stat linked cageL pA junk).1.ino = 9 ∧ stat linked cageL pC junk = (junk, .err .ENOENT) :=
  ⟨linked_reach, linked_cage, ⟨by decide, cageL, linked_cage, by decide +kernel⟩, by decide +kernel⟩

/-- Later the file has another name and is found again. -/
example : (stat linked cageL pA junk).2 = .ok 0 ∧
    (stat (run linked ([(0, .unlink pA), (0, .rename pB pC)] ++ [(0, .mkdir pA 0o777#32)])) cageL pC junk).2 = .ok 0 ∧
    (stat (run linked ([(0, .unlink pA), (0, .rename pB pC)] ++ [(0, .mkdir pA 0o777#32)])) cageL pC junk).1.ino =
      (stat linked cageL pA junk).1.ino := by
  decide +kernel

/-! ## Violations -/

/-- stat does not store the times of the file (access, modification, change), although they are kept: the caller reads what was in
the buffer before.  No call reports them (`fs_calls.rs` 1208-1259; `types.rs` 46: "currently we don't populate … the time bits").
For a device the block size and block count are not stored either. -/
theorem times_violated :
    (stat init cage0 pDev junk).2 = .ok 0 ∧ times (stat init cage0 pDev junk).1 = ((7, 7), (7, 7), (7, 7)) ∧
    (stat init cage0 pNull junk).2 = .ok 0 ∧ (stat init cage0 pNull junk).1.blksize = 7 ∧ (stat init cage0 pNull junk).1.blocks = 7 := by
  decide +kernel

/-- fstat of standard input gives the device and number of the directory `/dev`: a program that compares the pairs takes them for
the same file (`fs_constants.rs` 17 calls 2 a dummy value; `filesystem.rs` gives it to `/dev`). -/
theorem stdin_is_dev_violated :
    (fstat init cage0 0 junk).2 = .ok 0 ∧ (stat init cage0 pDev junk).2 = .ok 0 ∧
    (fstat init cage0 0 junk).1.dev = (stat init cage0 pDev junk).1.dev ∧
    (fstat init cage0 0 junk).1.ino = (stat init cage0 pDev junk).1.ino ∧
    fileType (fstat init cage0 0 junk).1.mode ≠ fileType (stat init cage0 pDev junk).1.mode := by
  decide +kernel

/-- Two pipes and an epoll object. -/
def twoPipes : State := run init [(0, .pipe2 0#32), (0, .pipe2 0#32), (0, .epollCreate 1)]

/-- All pipes have the same device and number, also that of every epoll object; and by their mode they are sockets (`S_ISSOCK`), not
pipes. -/
theorem pipes_same_violated : ∃ cg, twoPipes.cages 0 = some cg ∧
    (fstat twoPipes cg 3 junk).2 = .ok 0 ∧ fstat twoPipes cg 3 junk = fstat twoPipes cg 5 junk ∧
    fstat twoPipes cg 3 junk = fstat twoPipes cg 7 junk ∧
    fileType (fstat twoPipes cg 3 junk).1.mode = 0o140000#32 ∧ fileType (fstat twoPipes cg 3 junk).1.mode ≠ 0o010000#32 := by
  decide +kernel

end Verif.StatBuf
