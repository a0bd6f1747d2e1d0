import Verif.NsAnswers
import Verif.HistProps

/-!
# Opening with O_TRUNC: C74
-/

namespace Verif.Kernel
open Verif.Path Verif.Fs

set_option linter.unusedSimpArgs false

/-! ## Specification

`Leads s cg p i`: in state `s` the path `p`, as the process `cg` writes it, leads to the object `i`.  `bytes s i` is the content of
a file, `OpenOn s c fd i pos f` says that descriptor `fd` of process `c` is open on `i` at `pos` with the flags `f`.  The bits of the
flags are Linux's: 0200 O_EXCL, 01000 O_TRUNC, 02000 O_APPEND, 03 the access mode. -/

/-- Every path of every process leads to the same object in both states. -/
def SameNames (s s' : State) : Prop := ∀ (cg : Cage) (q : Str) (j : Nat), Leads s' cg q j ↔ Leads s cg q j

/-! ## Lemmas -/

theorem excl_clear (flags : BitVec 32) (hx : flags &&& 0o200#32 = 0#32) :
    ¬ (flags &&& (oCREAT ||| oEXCL) = oCREAT ||| oEXCL) := by
  intro e
  have e1 : flags &&& (oCREAT ||| oEXCL) &&& 0o200#32 = (oCREAT ||| oEXCL) &&& 0o200#32 := by rw [e]
  rw [BitVec.and_assoc, show (oCREAT ||| oEXCL) &&& 0o200#32 = 0o200#32 from by decide, hx] at e1
  revert e1; decide

theorem sameNames_of {s s' : State} {i : Nat} {nd nd' : Inode} (hnd : s.fs.inodes i = some nd)
    (hk : nd'.kind = nd.kind) (he : nd'.ents = nd.ents) (hi : s'.fs.inodes = upd s.fs.inodes i (some nd')) : SameNames s s' := by
  have hdir : nd'.isDir = nd.isDir := by simp only [Inode.isDir, hk]
  intro cg q j
  constructor
  · intro hw
    refine Walk.congr ?_ hw
    intro d x hd hx
    rw [hi] at hd
    by_cases e : d = i
    · subst e
      rw [upd_same] at hd; cases hd
      exact ⟨nd, hnd, hdir ▸ hx, fun _ h => he ▸ h⟩
    · rw [upd_ne _ _ e] at hd; exact ⟨x, hd, hx, fun _ h => h⟩
  · intro hw
    refine Walk.congr ?_ hw
    intro d x hd hx
    rw [hi]
    by_cases e : d = i
    · subst e
      rw [hnd] at hd; cases hd
      exact ⟨nd', upd_same .., hdir ▸ hx, fun _ h => he ▸ h⟩
    · rw [upd_ne _ _ e]; exact ⟨x, hd, hx, fun _ h => h⟩

/-! ## C74 -/

/-- C74.  Opening a regular file with O_TRUNC (and without O_EXCL), whatever the access mode: the descriptor is the lowest free one,
at position 0; the file has no bytes and size 0, under every one of its names; its kind, permissions, links and every other object are as
before; nothing else is in the descriptor tables than the new descriptor. -/
theorem open_trunc {s : State} (h : Reach s) {c : Nat} {cg : Cage} (hc : s.cages c = some cg) {p : Str} {i : Nat} {nd : Inode}
    (hp : p ≠ []) (hi : Leads s cg p i) (hnd : s.fs.inodes i = some nd) (hk : nd.kind = .file) {flags : BitVec 32}
    (mode : BitVec 32) (hx : flags &&& 0o200#32 = 0#32) (ht : flags &&& 0o1000#32 ≠ 0#32) {fd : Nat}
    (hfd : fd < 1024 ∧ cg.fds fd = none ∧ ∀ k < fd, cg.fds k ≠ none) :
    let r := step s c (.openP p flags mode)
    r.2 = { ret := .ok fd } ∧ bytes r.1 i = [] ∧ r.1.fs.inodes i = some { nd with size := 0, ref := nd.ref + 1 } ∧
      (∀ j, j ≠ i → bytes r.1 j = bytes s j ∧ r.1.fs.inodes j = s.fs.inodes j) ∧ SameNames s r.1 ∧
      r.1.cages = upd s.cages c (some { cg with fds := upd cg.fds fd (some (.file i 0 (flags &&& 0o2000003#32))) }) := by
  obtain ⟨par, hw, -⟩ := h.inv.walk_found hc hi
  have hn : nextFd cg.fds 0 = some fd := by
    cases e : nextFd cg.fds 0 with
    | none => exact absurd hfd.2.1 (nextFd_none e fd (Nat.zero_le _) hfd.1)
    | some k =>
      obtain ⟨-, k2, k3, k4⟩ := nextFd_some e
      rcases Nat.lt_trichotomy k fd with g | g | g
      · exact absurd k3 (hfd.2.2 k g)
      · rw [g]
      · exact absurd hfd.2.1 (k4 fd (Nat.zero_le _) g)
  have hdisk : ∃ b, s.fs.disk i = some b := by
    obtain ⟨hd, -⟩ := h.inv.content ⟨nd, hnd, hk, rfl⟩
    exact ⟨_, hd⟩
  obtain ⟨b, hb⟩ := hdisk
  intro r
  have hr : r = step s c (.openP p flags mode) := rfl
  simp only [step, hc, openSys, if_neg hp, hn, Fs.openP, hw, Fs.openExisting, if_neg (excl_clear flags hx), hnd, hk,
    if_pos ((trunc_bit flags).2 ht), hb] at hr
  have e1 : r.1.fs.inodes = upd s.fs.inodes i (some { nd with size := 0, ref := nd.ref + 1 }) := by
    rw [hr, setFd_fs]; simp [Fs.set, Fs.openObj, Fs.rmHost, upd_same, hk]
  have e2 : r.1.fs.disk = upd s.fs.disk i (some []) := by
    rw [hr, setFd_fs]; simp [Fs.set, Fs.openObj, Fs.rmHost, upd_same, upd_upd]
  refine ⟨by rw [hr]; rfl, ?_, by rw [e1, upd_same], ?_, sameNames_of hnd (nd' := { nd with size := 0, ref := nd.ref + 1 }) rfl rfl e1, ?_⟩
  · simp only [bytes, e2, upd_same]; rfl
  · intro j hj
    simp only [bytes, e2, e1, upd_ne _ _ hj]; exact ⟨trivial, trivial⟩
  · rw [hr]
    have key : ∀ F : Fs, (({ s with fs := F } : State).setFd c fd (some (newDesc i 0 flags))).cages =
        upd s.cages c (some (cg.withSlot fd (some (newDesc i 0 flags)))) := fun F => setFd_at (s := { s with fs := F }) hc
    refine (key _).trans ?_
    have : newDesc i 0 flags = .file i 0 (flags &&& 0o2000003#32) := by
      simp only [newDesc, ite_self]; rfl
    rw [this]; rfl

/-- C74.  On a directory or a device O_TRUNC does nothing: the open succeeds, and attributes, contents and names are as before. -/
theorem open_trunc_other {s : State} (h : Reach s) {c : Nat} {cg : Cage} (hc : s.cages c = some cg) {p : Str} {i : Nat} {nd : Inode}
    (hp : p ≠ []) (hi : Leads s cg p i) (hnd : s.fs.inodes i = some nd) (hk : nd.kind ≠ .file ∧ nd.kind ≠ .sock) {flags : BitVec 32}
    (mode : BitVec 32) (hx : flags &&& 0o200#32 = 0#32) (hfd : ∃ fd, fd < 1024 ∧ cg.fds fd = none) :
    let r := step s c (.openP p flags mode)
    (∃ fd, r.2.ret = .ok (fd : Nat)) ∧ r.1.fs.inodes = upd s.fs.inodes i (some { nd with ref := nd.ref + 1 }) ∧
      (∀ j, bytes r.1 j = bytes s j) ∧ SameNames s r.1 := by
  obtain ⟨par, hw, -⟩ := h.inv.walk_found hc hi
  obtain ⟨k, h1, h2⟩ := hfd
  intro r
  have hr : r = step s c (.openP p flags mode) := rfl
  cases hn : nextFd cg.fds 0 with
  | none => exact absurd h2 (nextFd_none hn k (Nat.zero_le _) h1)
  | some fd =>
    have he : s.fs.openExisting i flags = (s.fs.set i (some { nd with ref := nd.ref + 1 }), .opened i nd.size) := by
      simp only [Fs.openExisting, if_neg (excl_clear flags hx), hnd]
      cases hkk : nd.kind with
      | file => exact absurd hkk hk.1
      | sock => exact absurd hkk hk.2
      | dir => simp only [hkk]
      | chr d => simp only [hkk]
    simp only [step, hc, openSys, if_neg hp, hn, Fs.openP, hw, he] at hr
    have e1 : r.1.fs.inodes = upd s.fs.inodes i (some { nd with ref := nd.ref + 1 }) := by
      rw [hr, setFd_fs]; rfl
    refine ⟨⟨fd, by rw [hr]; rfl⟩, e1, ?_, sameNames_of hnd (nd' := { nd with ref := nd.ref + 1 }) rfl rfl e1⟩
    intro j; rw [hr]; simp only [bytes, setFd_fs]; rfl

/-- C74.  An open that is answered with an error empties nothing and changes nothing. -/
theorem open_failed_same {s : State} {c : Nat} {p : Str} {flags mode : BitVec 32} {e : Errno}
    (he : (step s c (.openP p flags mode)).2.ret = .err e) : (step s c (.openP p flags mode)).1 = s := by
  cases hc : s.cages c with
  | none => simp only [step, hc]
  | some cg =>
    simp only [step, hc, openSys] at he ⊢
    by_cases hp : p = []
    · simp only [if_pos hp]
    · simp only [if_neg hp] at he ⊢
      cases hn : nextFd cg.fds 0 with
      | none => rfl
      | some fd =>
        simp only [hn] at he ⊢
        cases ho : s.fs.openP (cg.path p) flags mode with
        | mk fs' r =>
          cases r with
          | opened i z => simp only [ho, Out.r] at he; cases he
          | failed r =>
            simp only [Fs.openP, Fs.openExisting] at ho
            have : fs' = s.fs := by
              repeat' split at ho
              all_goals first
                | (cases ho; rfl)
                | cases ho
                | skip
            subst this; rfl

/-- C74.  The other descriptors open on the file keep their positions; a write through one of them puts its bytes there and zeros
before them. -/
theorem open_trunc_then_write {s : State} (h : Reach s) {c : Nat} {cg : Cage} (hc : s.cages c = some cg) {p : Str} {i : Nat} {nd : Inode}
    (hp : p ≠ []) (hi : Leads s cg p i) (hnd : s.fs.inodes i = some nd) (hk : nd.kind = .file) {flags : BitVec 32}
    (mode : BitVec 32) (hx : flags &&& 0o200#32 = 0#32) (ht : flags &&& 0o1000#32 ≠ 0#32) {fd : Nat}
    (hfd : fd < 1024 ∧ cg.fds fd = none ∧ ∀ k < fd, cg.fds k ≠ none) {c2 fd2 pos : Nat} {f : BitVec 32}
    (ho : OpenOn s c2 fd2 i pos f) (hm : f &&& 3#32 ≠ 0#32) (data : List UInt8) :
    let s' := (step s c (.openP p flags mode)).1
    OpenOn s' c2 fd2 i pos f ∧ bytes (step s' c2 (.write fd2 data)).1 i = List.replicate pos 0 ++ data := by
  have hR : Reach (step s c (.openP p flags mode)).1 := by
    refine .step c _ h (by simp only [Tame, hc]) ?_
    rw [(open_trunc h hc hp hi hnd hk mode hx ht hfd).1]; simp
  obtain ⟨-, h2, h3, -, -, h6⟩ := open_trunc h hc hp hi hnd hk mode hx ht hfd
  intro s'
  have ho' : OpenOn s' c2 fd2 i pos f := by
    obtain ⟨o1, cg2, o2, o3⟩ := ho
    refine ⟨o1, ?_⟩
    rw [h6]
    by_cases e : c2 = c
    · subst e
      rw [hc] at o2; cases o2
      refine ⟨_, upd_same .., ?_⟩
      have : fd2 ≠ fd := by rintro rfl; rw [hfd.2.1] at o3; cases o3
      simp only [upd_ne _ _ this, o3]
    · exact ⟨cg2, by rw [upd_ne _ _ e, o2], o3⟩
  refine ⟨ho', ?_⟩
  obtain ⟨⟨w1, w2, w3, w4⟩, -⟩ := write_writes hR (data := data) ho' (size := 0) ⟨_, h3, hk, rfl⟩ hm
  have hz : bytes s' i = [] := h2
  rw [hz] at w3 w4
  apply List.ext_getElem?
  intro k
  rw [List.getElem?_append, List.length_replicate]
  split
  · rename_i hlt
    rw [List.getElem?_replicate, if_pos hlt]
    exact w3 k (Nat.zero_le _) hlt
  · rename_i hge
    have hge : pos ≤ k := by omega
    by_cases hk2 : k - pos < data.length
    · have := w1 (k - pos) hk2
      rwa [show pos + (k - pos) = k by omega] at this
    · rw [List.getElem?_eq_none (l := data) (by omega)]
      refine List.getElem?_eq_none ?_
      refine Nat.le_trans (Nat.le_of_eq w4) ?_
      simp only [List.length_nil]; omega

/-! ## The hypotheses are met -/

/-- The names of the path `/a`. -/
theorem pA_names : names (normpath [slash] pA) = [[97]] := by decide +kernel

/-- Descriptor 3 of `demo` is open on the file of three bytes `/a`, at its end; here process 1 could open it with O_RDONLY|O_TRUNC. -/
example : Reach demo ∧ ∃ cg nd, demo.cages 1 = some cg ∧ pA ≠ [] ∧ Leads demo cg pA 9 ∧ demo.fs.inodes 9 = some nd ∧
    nd.kind = .file ∧ nd.size = 3 ∧ bytes demo 9 = [1, 2, 3] ∧ OpenOn demo 0 3 9 3 2#32 ∧ 2#32 &&& 3#32 ≠ 0#32 ∧
    (0o1000#32 &&& 0o200#32 = 0#32 ∧ 0o1000#32 &&& 0o1000#32 ≠ 0#32) ∧
    (3 < 1024 ∧ cg.fds 3 = none ∧ ∀ k < 3, cg.fds k ≠ none) := by
  refine ⟨demo_reach, _, _, rfl, by decide, ?_, rfl, by rfl, by rfl, by decide +kernel, ⟨by decide, _, rfl, by rfl⟩, by decide, by decide,
    by decide, by decide +kernel, by decide +kernel⟩
  show Walk demo.fs.inodes rootIno (names (normpath [slash] pA)) 9
  rw [pA_names]
  exact .down (nd := (demo.fs.inodes 1).get (by decide +kernel)) (by simp [rootIno]) (by decide +kernel) (by decide +kernel) (.here _)

/-- What becomes of it: the file is empty, descriptor 3 keeps its position, and its next write leaves a gap of zeros. -/
example : let s := run demo [(1, .openP pA 0o1000#32 0#32)]
    bytes s 9 = [] ∧ slot s 1 3 = some (.file 9 0 0#32) ∧ slot s 0 3 = some (.file 9 3 2#32) ∧
    bytes (run s [(0, .write 3 [7, 8])]) 9 = [0, 0, 0, 7, 8] := by decide +kernel

/-! ## C74, violated -/

/-- C74, violated: opening a file with O_TRUNC in one process makes the next `read` of another process that has read some of it abort
the whole program; Linux answers 0. -/
theorem trunc_read_aborts_violated : let s := run demo [(1, .openP pA 0o1000#32 0#32)]
    Reach s ∧ slot s 0 3 = some (.file 9 3 2#32) ∧ (step s 0 (.read 3 1)).2.ret = .panic := by
  refine ⟨demo_reach.run [(1, .openP pA 0o1000#32 0#32)] (by decide +kernel), by decide +kernel, by decide +kernel⟩

/-- C74, violated: a directory opened for writing, with O_TRUNC or without, is opened; Linux answers EISDIR. -/
theorem trunc_directory_violated : Reach demo ∧ (step demo 0 (.openP [47] 0o1001#32 0#32)).2.ret = .ok 6 ∧
    (step demo 0 (.openP [47] 1#32 0#32)).2.ret = .ok 6 := by
  refine ⟨demo_reach, by decide +kernel, by decide +kernel⟩

end Verif.Kernel
