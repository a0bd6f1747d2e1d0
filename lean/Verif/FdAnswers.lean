import Verif.NoPanic

/-!
# When a call on a descriptor fails, and with what: C76
-/

set_option linter.unusedSimpArgs false

namespace Verif.Kernel
open Verif.Fs Verif.Path
open Verif.Pipe (Pipe)

/-! ## Specification -/

/-- What a descriptor is open on. -/
inductive Thing
  | closed
  | regular (pos size : Nat)
  | directory (pos entries : Nat)
  | device (dev : BitVec 32 × BitVec 32)
  | pipe
  | stream (n : Nat)
  | epoll
  | socket
  deriving DecidableEq, Repr

/-- Descriptor `fd` of process `c` is open on this thing, with these flags. -/
inductive Refers (s : State) (c fd : Nat) : Thing → BitVec 32 → Prop
  | closed {cg} : s.cages c = some cg → cg.fds fd = none → Refers s c fd .closed 0#32
  | regular {cg i pos f nd} : s.cages c = some cg → cg.fds fd = some (.file i pos f) → s.fs.inodes i = some nd → nd.kind = .file →
      Refers s c fd (.regular pos nd.size) f
  | directory {cg i pos f nd} : s.cages c = some cg → cg.fds fd = some (.file i pos f) → s.fs.inodes i = some nd → nd.kind = .dir →
      Refers s c fd (.directory pos nd.ents.length) f
  | device {cg i pos f nd dev} : s.cages c = some cg → cg.fds fd = some (.file i pos f) → s.fs.inodes i = some nd → nd.kind = .chr dev →
      Refers s c fd (.device dev) f
  | pipe {cg id f} : s.cages c = some cg → cg.fds fd = some (.pipe id f) → Refers s c fd .pipe f
  | stream {cg n f} : s.cages c = some cg → cg.fds fd = some (.stream n f) → Refers s c fd (.stream n) f
  | epoll {cg f} : s.cages c = some cg → cg.fds fd = some (.epoll f) → Refers s c fd .epoll f
  | socket {cg f} : s.cages c = some cg → cg.fds fd = some (.sock f) → Refers s c fd .socket f

/-- The descriptor a call is about. -/
def subject : Op → Option Int
  | .fchmod fd _ | .fstat fd | .fchdir fd | .ftruncate fd _ | .read fd _ | .pread fd _ _ | .write fd _ | .pwrite fd _ _
  | .writev fd _ | .lseek fd _ _ | .getdents fd _ | .close fd | .dup fd | .dup2 fd _ | .fcntl fd _ _ => some fd
  | _ => none

/-- Calls that read. -/
def reads : Op → Bool | .read _ _ | .pread _ _ _ => true | _ => false
/-- Calls that write. -/
def writes : Op → Bool | .write _ _ | .pwrite _ _ _ | .writev _ _ => true | _ => false
/-- Calls that need a position. -/
def seeks : Op → Bool | .pread _ _ _ | .pwrite _ _ _ | .lseek _ _ _ => true | _ => false

/-- Things that have a position. -/
def Thing.seekable : Thing → Bool | .regular _ _ | .directory _ _ | .device _ => true | _ => false
/-- Directories. -/
def Thing.isDirectory : Thing → Bool | .directory _ _ => true | _ => false
/-- Regular files. -/
def Thing.isRegular : Thing → Bool | .regular _ _ => true | _ => false

/-- Where `lseek` leads from position `pos` of something that ends at `size`. -/
def seekTo (pos size : Nat) (off whence : Int) : Option Int :=
  if whence = 0 then some off else if whence = 1 then some (pos + off) else if whence = 2 then some (size + off) else none

/-- The reasons for which POSIX and Linux let a call on a descriptor fail, with the error each gives.  Which one is given when there are
several is left open. -/
inductive Reason : Op → Thing → BitVec 32 → Errno → Prop
  /-- the descriptor is not open -/
  | bad {op f} : Reason op .closed f .EBADF
  /-- it is not open for reading, or for writing -/
  | noRead {op t f} : reads op = true → t ≠ .socket → t ≠ .epoll → f &&& 3#32 = 1#32 → Reason op t f .EBADF
  | noWrite {op t f} : writes op = true → t ≠ .socket → t ≠ .epoll → f &&& 3#32 = 0#32 → Reason op t f .EBADF
  | noTrunc {fd len t f} : f &&& 3#32 = 0#32 → Reason (.ftruncate fd len) t f .EBADF
  /-- directories are not read or written -/
  | isDir {op t f} : reads op = true ∨ writes op = true → t.isDirectory = true → Reason op t f .EISDIR
  | truncDir {fd len t f} : t.isDirectory = true → Reason (.ftruncate fd len) t f .EISDIR
  /-- only regular files have a length to set, and it is not negative -/
  | truncOther {fd len t f} : t.isRegular = false → Reason (.ftruncate fd len) t f .EINVAL
  | truncNeg {fd len t f} : len < 0 → Reason (.ftruncate fd len) t f .EINVAL
  /-- no position -/
  | noSeek {op t f} : seeks op = true → t.seekable = false → t ≠ .closed → Reason op t f .ESPIPE
  /-- a position that is none -/
  | seekReg {fd off wh pos size f} : (∀ v, seekTo pos size off wh = some v → v < 0) →
      Reason (.lseek fd off wh) (.regular pos size) f .EINVAL
  | seekDir {fd off wh pos size f} : (∀ v, seekTo pos size off wh = some v → v < 0) →
      Reason (.lseek fd off wh) (.directory pos size) f .EINVAL
  | whence {fd off wh dev f} : wh ∉ [0, 1, 2] → Reason (.lseek fd off wh) (.device dev) f .EINVAL
  | preadNeg {fd n off t f} : off < 0 → Reason (.pread fd n off) t f .EINVAL
  | pwriteNeg {fd data off t f} : off < 0 → Reason (.pwrite fd data off) t f .EINVAL
  /-- only directories are listed and entered -/
  | listOther {fd b t f} : t.isDirectory = false → t ≠ .closed → Reason (.getdents fd b) t f .ENOTDIR
  | listShort {fd b t f} : b ≤ 18 → Reason (.getdents fd b) t f .EINVAL
  | enterOther {fd t f} : t.isDirectory = false → t ≠ .closed → Reason (.fchdir fd) t f .ENOTDIR
  /-- not for data -/
  | epollData {op f} : reads op = true ∨ writes op = true → Reason op .epoll f .EINVAL
  | sockData {op f} : reads op = true ∨ writes op = true → Reason op .socket f .ENOTCONN
  /-- a number that is not a command -/
  | command {fd cmd arg t f} : cmd ∉ [0, 1, 2, 3, 4, 8, 9] → Reason (.fcntl fd cmd arg) t f .EINVAL
  /-- a descriptor number that is none -/
  | dupArg {fd arg t f} : arg.toInt < 0 → Reason (.fcntl fd 0 arg) t f .EINVAL
  | dup2Range {fd new t f} : new < 0 ∨ 1024 ≤ new → Reason (.dup2 fd new) t f .EBADF

/-- Where the code's answer is another one: `deviates` below shows that it is one in each of these cases. -/
inductive Deviates (s : State) (c : Nat) : Op → Thing → BitVec 32 → Prop
  /-- reading a standard stream is not supported -/
  | streamRead {fd n k f} : Deviates s c (.read fd n) (.stream k) f
  /-- what a standard stream is open for is not looked at -/
  | streamWrite {fd data k f} : ¬ ((k = 1 ∨ k = 2) ↔ f &&& 3#32 ≠ 0#32) → Deviates s c (.write fd data) (.stream k) f
  | streamWritev {fd iovs k f} : f &&& 3#32 = 0#32 → Deviates s c (.writev fd iovs) (.stream k) f
  /-- a device the code does not know -/
  | readDev {op dev f} : reads op = true → f &&& 3#32 ≠ 1#32 → dev ∉ [(1, 3), (1, 5), (1, 8), (1, 9)] → Deviates s c op (.device dev) f
  | writeDev {op dev f} : writes op = true → f &&& 3#32 ≠ 0#32 → dev ∉ [(1, 3), (1, 5), (1, 8), (1, 9)] → Deviates s c op (.device dev) f
  /-- negative offsets: regular files abort the program, devices do not mind -/
  | preadNeg {fd n off t f} : off < 0 → f &&& 3#32 ≠ 1#32 → t.isRegular = true ∨ (∃ d, t = .device d) → Deviates s c (.pread fd n off) t f
  | pwriteNeg {fd data off t f} : off < 0 → f &&& 3#32 ≠ 0#32 → t.isRegular = true ∨ (∃ d, t = .device d) → Deviates s c (.pwrite fd data off) t f
  /-- a position beyond the last entry of a directory -/
  | seekDir {fd off wh pos n f v} : seekTo pos n off wh = some v → (n : Int) < v → Deviates s c (.lseek fd off wh) (.directory pos n) f
  /-- and from where a device is positioned is not looked at -/
  | seekDev {fd off wh dev f} : wh ∉ [0, 1, 2] → Deviates s c (.lseek fd off wh) (.device dev) f
  /-- things without a place in the file system cannot be listed, with another error -/
  | listOther {fd b t f} : t.seekable = false → t ≠ .closed → 18 < b → Deviates s c (.getdents fd b) t f
  | statSock {fd f} : Deviates s c (.fstat fd) .socket f
  | chmodOther {fd m t f} : t.seekable = false → t ≠ .closed → Deviates s c (.fchmod fd m) t f
  /-- bits that are no permissions, among them set-user-ID and the sticky bit -/
  | chmodBits {fd m t f} : t ≠ .closed → m &&& 0o777#32 ≠ m → Deviates s c (.fchmod fd m) t f
  | writevEpoll {fd iovs f} : Deviates s c (.writev fd iovs) .epoll f
  /-- an instance of epoll is not copied -/
  | dupEpoll {fd f} : fd ≠ 0 → Deviates s c (.dup fd) .epoll f
  | dup2Epoll {fd new f} : fd ≠ new → 0 ≤ new → new < 1024 → Deviates s c (.dup2 fd new) .epoll f
  | dupfdEpoll {fd arg f} : 0 ≤ arg.toInt → Deviates s c (.fcntl fd 0 arg) .epoll f
  /-- no descriptor left from the given number on: the error is that of the system's table -/
  | dupFull {fd t f cg} : fd ≠ 0 → t ≠ .closed → s.cages c = some cg → (∀ k, k < 1024 → cg.fds k ≠ none) → Deviates s c (.dup fd) t f
  | dupfdFull {fd arg t f cg} : t ≠ .closed → s.cages c = some cg → 0 ≤ arg.toInt → (∀ k, arg.toNat ≤ k → k < 1024 → cg.fds k ≠ none) →
      Deviates s c (.fcntl fd 0 arg) t f
  /-- descriptor 0 is always answered with 0, and so is a descriptor that is to become itself -/
  | dupZero {f} : Deviates s c (.dup 0) .closed f
  | dup2Self {fd f} : 0 ≤ fd → fd < 1024 → Deviates s c (.dup2 fd fd) .closed f
  /-- negative arguments of commands that take any -/
  | setNeg {fd cmd arg t f} : cmd = 2 ∨ cmd = 4 ∨ cmd = 8 → arg.toInt < 0 → t ≠ .closed → Deviates s c (.fcntl fd cmd arg) t f

/-- Reading and writing a pipe that is open for it (C01 to C04), and entering a directory (C46): whether these fail depends on more than the
descriptor. -/
def Elsewhere (op : Op) (t : Thing) (f : BitVec 32) : Prop :=
  (t = .pipe ∧ ((∃ fd n, op = .read fd n) ∧ f &&& 3#32 ≠ 1#32 ∨ ((∃ fd d, op = .write fd d) ∨ ∃ fd d, op = .writev fd d) ∧ f &&& 3#32 ≠ 0#32)) ∨
  (t.isDirectory = true ∧ ∃ fd, op = .fchdir fd)

/-! ## Lemmas -/

theorem refers_slot {s : State} {c fd : Nat} {t : Thing} {f : BitVec 32} (h : Refers s c fd t f) :
    ∃ cg, s.cages c = some cg ∧ match t with
      | .closed => cg.fds fd = none
      | .regular pos size => ∃ i nd, cg.fds fd = some (.file i pos f) ∧ s.fs.inodes i = some nd ∧ nd.kind = .file ∧ nd.size = size
      | .directory pos n => ∃ i nd, cg.fds fd = some (.file i pos f) ∧ s.fs.inodes i = some nd ∧ nd.kind = .dir ∧ nd.ents.length = n
      | .device dev => ∃ i pos nd, cg.fds fd = some (.file i pos f) ∧ s.fs.inodes i = some nd ∧ nd.kind = .chr dev
      | .pipe => ∃ id, cg.fds fd = some (.pipe id f)
      | .stream n => cg.fds fd = some (.stream n f)
      | .epoll => cg.fds fd = some (.epoll f)
      | .socket => cg.fds fd = some (.sock f) := by
  cases h with
  | closed a b => exact ⟨_, a, b⟩
  | regular a b c' d => exact ⟨_, a, _, _, b, c', d, rfl⟩
  | directory a b c' d => exact ⟨_, a, _, _, b, c', d, rfl⟩
  | device a b c' d => exact ⟨_, a, _, _, _, b, c', d⟩
  | pipe a b => exact ⟨_, a, _, b⟩
  | stream a b => exact ⟨_, a, b⟩
  | epoll a b => exact ⟨_, a, b⟩
  | socket a b => exact ⟨_, a, b⟩

theorem rd_iff {f : BitVec 32} : isRdonly f = true ↔ f &&& 3#32 = 0#32 := by
  unfold isRdonly oRDWRFLAGS; simp
theorem wr_iff {f : BitVec 32} : isWronly f = true ↔ f &&& 3#32 = 1#32 := by
  unfold isWronly oRDWRFLAGS; simp

/-! ## C76 -/

/-- C76.  In a reachable state every descriptor number of a process is open on exactly one thing. -/
theorem refers_exists_unique {s : State} (h : Reach s) {c : Nat} {cg : Cage} (hc : s.cages c = some cg) (fd : Nat) :
    ∃ t f, Refers s c fd t f ∧ ∀ t' f', Refers s c fd t' f' → t' = t ∧ f' = f := by
  have key : ∃ t f, Refers s c fd t f := by
    cases hd : cg.fds fd with
    | none => exact ⟨_, _, .closed hc hd⟩
    | some d =>
      cases d with
      | file i pos f =>
        obtain ⟨nd, hi, hk, -⟩ := h.inv.fs.held (h.inv.file_held hc hd)
        cases hkk : nd.kind with
        | file => exact ⟨_, _, .regular hc hd hi hkk⟩
        | dir => exact ⟨_, _, .directory hc hd hi hkk⟩
        | chr dev => exact ⟨_, _, .device hc hd hi hkk⟩
        | sock => exact absurd hkk hk
      | pipe id f => exact ⟨_, _, .pipe hc hd⟩
      | stream n f => exact ⟨_, _, .stream hc hd⟩
      | epoll f => exact ⟨_, _, .epoll hc hd⟩
      | sock f => exact ⟨_, _, .socket hc hd⟩
  obtain ⟨t, f, ht⟩ := key
  refine ⟨t, f, ht, ?_⟩
  intro t' f' ht'
  cases ht <;> cases ht' <;> simp_all

/-- The statement of `fd_answer` for one call. -/
def Told (s : State) (c : Nat) (op : Op) (t : Thing) (f : BitVec 32) : Prop :=
  (∀ e, (step s c op).2.ret = .err e → Reason op t f e ∧ (step s c op).1 = s) ∧ ((∃ e, Reason op t f e) → ∃ e, (step s c op).2.ret = .err e)

/-- The call fails, rightly. -/
theorem Told.fails {s : State} {c : Nat} {op : Op} {t : Thing} {f : BitVec 32} {e : Errno} (h : step s c op = (s, .r (.err e)))
    (hr : Reason op t f e) : Told s c op t f := by
  refine ⟨fun e' he => ?_, fun _ => ⟨e, by rw [h]; rfl⟩⟩
  rw [h] at he ⊢
  simp only [Out.r, Ret.err.injEq] at he
  subst he; exact ⟨hr, rfl⟩

/-- The call does not fail, rightly. -/
theorem Told.works {s : State} {c : Nat} {op : Op} {t : Thing} {f : BitVec 32} (h : ∀ e, (step s c op).2.ret ≠ .err e)
    (hr : ∀ e, ¬ Reason op t f e) : Told s c op t f :=
  ⟨fun e he => absurd he (h e), fun ⟨e, he⟩ => absurd he (hr e)⟩

theorem readChr_unknown {dev : BitVec 32 × BitVec 32} (h : dev ∉ [(1, 3), (1, 5), (1, 8), (1, 9)]) (n : Nat) :
    (readChr dev n).ret = .err .EOPNOTSUPP := by
  simp only [List.mem_cons, List.not_mem_nil, or_false, not_or] at h
  simp only [readChr, h.1, h.2.1, h.2.2.1, h.2.2.2, or_self, if_false, Out.r]

theorem writeChr_unknown {dev : BitVec 32 × BitVec 32} (h : dev ∉ [(1, 3), (1, 5), (1, 8), (1, 9)]) (n : Nat) :
    (writeChr dev n).ret = .err .EOPNOTSUPP := by
  simp only [List.mem_cons, List.not_mem_nil, or_false, not_or] at h
  simp only [writeChr, h.1, h.2.1, h.2.2.1, h.2.2.2, or_self, if_false, Out.r]

theorem readChr_known {dev : BitVec 32 × BitVec 32} (h : dev ∈ [(1, 3), (1, 5), (1, 8), (1, 9)]) (n : Nat) (e : Errno) :
    (readChr dev n).ret ≠ .err e := by
  simp only [List.mem_cons, List.not_mem_nil, or_false] at h
  rcases h with rfl | rfl | rfl | rfl <;> simp [readChr, Out.r]

theorem writeChr_known {dev : BitVec 32 × BitVec 32} (h : dev ∈ [(1, 3), (1, 5), (1, 8), (1, 9)]) (n : Nat) (e : Errno) :
    (writeChr dev n).ret ≠ .err e := by
  simp only [List.mem_cons, List.not_mem_nil, or_false] at h
  rcases h with rfl | rfl | rfl | rfl <;> simp [writeChr, Out.r]

/-- No constructor applies. -/
macro "noreason1" : tactic =>
  `(tactic| (intro he; cases he <;> simp_all [reads, writes, seeks, Thing.isDirectory, Thing.isRegular, Thing.seekable]))

macro "noreason" : tactic =>
  `(tactic| (intro e he; cases he <;> simp_all [reads, writes, seeks, Thing.isDirectory, Thing.isRegular, Thing.seekable]))

theorem told_read {s : State} {c fd : Nat} (hfd : fd < 1024) {t : Thing} {f : BitVec 32} (hr : Refers s c fd t f) (n : Nat)
    (hdev : ¬ Deviates s c (.read fd n) t f)
    (hel : ¬ Elsewhere (.read fd n) t f) : Told s c (.read fd n) t f := by
  obtain ⟨cg, hc, hm⟩ := refers_slot hr
  cases t with
  | closed => exact .fails (by simp only [step, hc, read, getFd_nat hfd, hm]) .bad
  | regular pos size =>
    obtain ⟨i, nd, h1, h2, h3, h4⟩ := hm
    by_cases hw : isWronly f = true
    · exact .fails (by simp only [step, hc, read, getFd_nat hfd, h1, hw, if_true]) (.noRead rfl (by simp) (by simp) (wr_iff.1 hw))
    · refine .works (fun e => ?_) ?_
      · simp only [step, hc, read, getFd_nat hfd, h1, if_neg hw, h2, h3]
        (repeat' split) <;> simp [Out.r]
      · rw [wr_iff] at hw; noreason
  | directory pos k =>
    obtain ⟨i, nd, h1, h2, h3, h4⟩ := hm
    by_cases hw : isWronly f = true
    · exact .fails (by simp only [step, hc, read, getFd_nat hfd, h1, hw, if_true]) (.noRead rfl (by simp) (by simp) (wr_iff.1 hw))
    · exact .fails (by simp only [step, hc, read, getFd_nat hfd, h1, if_neg hw, h2, h3]) (.isDir (.inl rfl) rfl)
  | device dev =>
    obtain ⟨i, pos, nd, h1, h2, h3⟩ := hm
    by_cases hw : isWronly f = true
    · exact .fails (by simp only [step, hc, read, getFd_nat hfd, h1, hw, if_true]) (.noRead rfl (by simp) (by simp) (wr_iff.1 hw))
    · have hk : dev ∈ [(1, 3), (1, 5), (1, 8), (1, 9)] := Classical.byContradiction fun g => hdev (.readDev rfl (fun e => hw (wr_iff.2 e)) g)
      refine .works (fun e => ?_) ?_
      · simp only [step, hc, read, getFd_nat hfd, h1, if_neg hw, h2, h3]
        exact readChr_known hk n e
      · rw [wr_iff] at hw; noreason
  | pipe =>
    obtain ⟨id, h1⟩ := hm
    by_cases hw : isWronly f = true
    · exact .fails (by simp only [step, hc, read, getFd_nat hfd, h1, hw, if_true]) (.noRead rfl (by simp) (by simp) (wr_iff.1 hw))
    · rw [wr_iff] at hw
      exact absurd (.inl ⟨rfl, .inl ⟨⟨_, _, rfl⟩, hw⟩⟩) hel
  | stream k => exact absurd .streamRead hdev
  | epoll => exact .fails (by simp only [step, hc, read, getFd_nat hfd, hm]) (.epollData (.inl rfl))
  | socket => exact .fails (by simp only [step, hc, read, getFd_nat hfd, hm]) (.sockData (.inl rfl))

theorem told_pread {s : State} {c fd : Nat} (hfd : fd < 1024) {t : Thing} {f : BitVec 32} (hr : Refers s c fd t f) (n : Nat) (off : Int)
    (hdev : ¬ Deviates s c (.pread fd n off) t f) : Told s c (.pread fd n off) t f := by
  obtain ⟨cg, hc, hm⟩ := refers_slot hr
  cases t with
  | closed => exact .fails (by simp only [step, hc, pread, getFd_nat hfd, hm]) .bad
  | regular pos size =>
    obtain ⟨i, nd, h1, h2, h3, h4⟩ := hm
    by_cases hw : isWronly f = true
    · exact .fails (by simp only [step, hc, pread, getFd_nat hfd, h1, hw, if_true]) (.noRead rfl (by simp) (by simp) (wr_iff.1 hw))
    · have hoff : ¬ off < 0 := fun g => hdev (.preadNeg g (fun e => hw (wr_iff.2 e)) (.inl rfl))
      refine .works (fun e => ?_) ?_
      · simp only [step, hc, pread, getFd_nat hfd, h1, if_neg hw, h2, h3]
        (repeat' split) <;> simp [Out.r]
      · rw [wr_iff] at hw; noreason
  | directory pos k =>
    obtain ⟨i, nd, h1, h2, h3, h4⟩ := hm
    by_cases hw : isWronly f = true
    · exact .fails (by simp only [step, hc, pread, getFd_nat hfd, h1, hw, if_true]) (.noRead rfl (by simp) (by simp) (wr_iff.1 hw))
    · exact .fails (by simp only [step, hc, pread, getFd_nat hfd, h1, if_neg hw, h2, h3]) (.isDir (.inl rfl) rfl)
  | device dev =>
    obtain ⟨i, pos, nd, h1, h2, h3⟩ := hm
    by_cases hw : isWronly f = true
    · exact .fails (by simp only [step, hc, pread, getFd_nat hfd, h1, hw, if_true]) (.noRead rfl (by simp) (by simp) (wr_iff.1 hw))
    · have hk : dev ∈ [(1, 3), (1, 5), (1, 8), (1, 9)] := Classical.byContradiction fun g => hdev (.readDev rfl (fun e => hw (wr_iff.2 e)) g)
      have hoff : ¬ off < 0 := fun g => hdev (.preadNeg g (fun e => hw (wr_iff.2 e)) (.inr ⟨_, rfl⟩))
      refine .works (fun e => ?_) ?_
      · simp only [step, hc, pread, getFd_nat hfd, h1, if_neg hw, h2, h3]
        exact readChr_known hk n e
      · rw [wr_iff] at hw; noreason
  | pipe =>
    obtain ⟨id, h1⟩ := hm
    exact .fails (by simp only [step, hc, pread, getFd_nat hfd, h1]) (.noSeek rfl rfl (by simp))
  | stream k => exact .fails (by simp only [step, hc, pread, getFd_nat hfd, hm]) (.noSeek rfl rfl (by simp))
  | epoll => exact .fails (by simp only [step, hc, pread, getFd_nat hfd, hm]) (.noSeek rfl rfl (by simp))
  | socket => exact .fails (by simp only [step, hc, pread, getFd_nat hfd, hm]) (.noSeek rfl rfl (by simp))

theorem told_write {s : State} {c fd : Nat} (hfd : fd < 1024) {t : Thing} {f : BitVec 32} (hr : Refers s c fd t f) (data : List UInt8)
    (hdev : ¬ Deviates s c (.write fd data) t f)
    (hel : ¬ Elsewhere (.write fd data) t f) : Told s c (.write fd data) t f := by
  obtain ⟨cg, hc, hm⟩ := refers_slot hr
  cases t with
  | closed => exact .fails (by simp only [step, hc, write, getFd_nat hfd, hm]) .bad
  | regular pos size =>
    obtain ⟨i, nd, h1, h2, h3, h4⟩ := hm
    by_cases hw : isRdonly f = true
    · exact .fails (by simp only [step, hc, write, getFd_nat hfd, h1, hw, if_true]) (.noWrite rfl (by simp) (by simp) (rd_iff.1 hw))
    · refine .works (fun e => ?_) ?_
      · simp only [step, hc, write, getFd_nat hfd, h1, if_neg hw, h2, h3]
        (repeat' split) <;> simp [Out.r]
      · rw [rd_iff] at hw; noreason
  | directory pos k =>
    obtain ⟨i, nd, h1, h2, h3, h4⟩ := hm
    by_cases hw : isRdonly f = true
    · exact .fails (by simp only [step, hc, write, getFd_nat hfd, h1, hw, if_true]) (.noWrite rfl (by simp) (by simp) (rd_iff.1 hw))
    · exact .fails (by simp only [step, hc, write, getFd_nat hfd, h1, if_neg hw, h2, h3]) (.isDir (.inr rfl) rfl)
  | device dev =>
    obtain ⟨i, pos, nd, h1, h2, h3⟩ := hm
    by_cases hw : isRdonly f = true
    · exact .fails (by simp only [step, hc, write, getFd_nat hfd, h1, hw, if_true]) (.noWrite rfl (by simp) (by simp) (rd_iff.1 hw))
    · have hk : dev ∈ [(1, 3), (1, 5), (1, 8), (1, 9)] := Classical.byContradiction fun g => hdev (.writeDev rfl (fun e => hw (rd_iff.2 e)) g)
      refine .works (fun e => ?_) ?_
      · simp only [step, hc, write, getFd_nat hfd, h1, if_neg hw, h2, h3]
        exact writeChr_known hk _ e
      · rw [rd_iff] at hw; noreason
  | pipe =>
    obtain ⟨id, h1⟩ := hm
    by_cases hw : isRdonly f = true
    · exact .fails (by simp only [step, hc, write, getFd_nat hfd, h1, hw, if_true]) (.noWrite rfl (by simp) (by simp) (rd_iff.1 hw))
    · rw [rd_iff] at hw
      exact absurd (.inl ⟨rfl, .inr ⟨.inl ⟨_, _, rfl⟩, hw⟩⟩) hel
  | stream k =>
    have hk : (k = 1 ∨ k = 2) ↔ f &&& 3#32 ≠ 0#32 := Classical.byContradiction fun g => hdev (.streamWrite g)
    by_cases hw : f &&& 3#32 = 0#32
    · exact .fails (by simp only [step, hc, write, getFd_nat hfd, hm, if_neg (fun g => hk.1 g hw)]) (.noWrite rfl (by simp) (by simp) hw)
    · refine .works (fun e => ?_) ?_
      · simp only [step, hc, write, getFd_nat hfd, hm, if_pos (hk.2 hw)]; simp [Out.r]
      · noreason
  | epoll => exact .fails (by simp only [step, hc, write, getFd_nat hfd, hm]) (.epollData (.inr rfl))
  | socket => exact .fails (by simp only [step, hc, write, getFd_nat hfd, hm]) (.sockData (.inr rfl))

theorem told_writev {s : State} {c fd : Nat} (hfd : fd < 1024) {t : Thing} {f : BitVec 32} (hr : Refers s c fd t f) (iovs : List (List UInt8))
    (hdev : ¬ Deviates s c (.writev fd iovs) t f)
    (hel : ¬ Elsewhere (.writev fd iovs) t f) : Told s c (.writev fd iovs) t f := by
  obtain ⟨cg, hc, hm⟩ := refers_slot hr
  cases t with
  | closed => exact .fails (by simp only [step, hc, writev, getFd_nat hfd, hm]) .bad
  | regular pos size =>
    obtain ⟨i, nd, h1, h2, h3, h4⟩ := hm
    by_cases hw : isRdonly f = true
    · exact .fails (by simp only [step, hc, writev, getFd_nat hfd, h1, hw, if_true]) (.noWrite rfl (by simp) (by simp) (rd_iff.1 hw))
    · refine .works (fun e => ?_) ?_
      · simp only [step, hc, writev, getFd_nat hfd, h1, if_neg hw, h2, h3]
        (repeat' split) <;> simp [Out.r]
      · rw [rd_iff] at hw; noreason
  | directory pos k =>
    obtain ⟨i, nd, h1, h2, h3, h4⟩ := hm
    by_cases hw : isRdonly f = true
    · exact .fails (by simp only [step, hc, writev, getFd_nat hfd, h1, hw, if_true]) (.noWrite rfl (by simp) (by simp) (rd_iff.1 hw))
    · exact .fails (by simp only [step, hc, writev, getFd_nat hfd, h1, if_neg hw, h2, h3]) (.isDir (.inr rfl) rfl)
  | device dev =>
    obtain ⟨i, pos, nd, h1, h2, h3⟩ := hm
    by_cases hw : isRdonly f = true
    · exact .fails (by simp only [step, hc, writev, getFd_nat hfd, h1, hw, if_true]) (.noWrite rfl (by simp) (by simp) (rd_iff.1 hw))
    · have hk : dev ∈ [(1, 3), (1, 5), (1, 8), (1, 9)] := Classical.byContradiction fun g => hdev (.writeDev rfl (fun e => hw (rd_iff.2 e)) g)
      refine .works (fun e => ?_) ?_
      · simp only [step, hc, writev, getFd_nat hfd, h1, if_neg hw, h2, h3]
        exact writeChr_known hk _ e
      · rw [rd_iff] at hw; noreason
  | pipe =>
    obtain ⟨id, h1⟩ := hm
    by_cases hw : isRdonly f = true
    · exact .fails (by simp only [step, hc, writev, getFd_nat hfd, h1, hw, if_true]) (.noWrite rfl (by simp) (by simp) (rd_iff.1 hw))
    · rw [rd_iff] at hw
      exact absurd (.inl ⟨rfl, .inr ⟨.inr ⟨_, _, rfl⟩, hw⟩⟩) hel
  | stream k =>
    have hw : f &&& 3#32 ≠ 0#32 := fun g => hdev (.streamWritev g)
    refine .works (fun e => ?_) ?_
    · simp only [step, hc, writev, getFd_nat hfd, hm]; simp [Out.r]
    · noreason
  | epoll => exact absurd .writevEpoll hdev
  | socket => exact .fails (by simp only [step, hc, writev, getFd_nat hfd, hm]) (.sockData (.inr rfl))

theorem told_pwrite {s : State} {c fd : Nat} (hfd : fd < 1024) {t : Thing} {f : BitVec 32} (hr : Refers s c fd t f) (data : List UInt8) (off : Int)
    (hdev : ¬ Deviates s c (.pwrite fd data off) t f) : Told s c (.pwrite fd data off) t f := by
  obtain ⟨cg, hc, hm⟩ := refers_slot hr
  cases t with
  | closed => exact .fails (by simp only [step, hc, pwrite, getFd_nat hfd, hm]) .bad
  | regular pos size =>
    obtain ⟨i, nd, h1, h2, h3, h4⟩ := hm
    by_cases hw : isRdonly f = true
    · exact .fails (by simp only [step, hc, pwrite, getFd_nat hfd, h1, hw, if_true]) (.noWrite rfl (by simp) (by simp) (rd_iff.1 hw))
    · have hoff : ¬ off < 0 := fun g => hdev (.pwriteNeg g (fun e => hw (rd_iff.2 e)) (.inl rfl))
      refine .works (fun e => ?_) ?_
      · simp only [step, hc, pwrite, getFd_nat hfd, h1, if_neg hw, h2, h3]
        (repeat' split) <;> simp [Out.r]
      · rw [rd_iff] at hw; noreason
  | directory pos k =>
    obtain ⟨i, nd, h1, h2, h3, h4⟩ := hm
    by_cases hw : isRdonly f = true
    · exact .fails (by simp only [step, hc, pwrite, getFd_nat hfd, h1, hw, if_true]) (.noWrite rfl (by simp) (by simp) (rd_iff.1 hw))
    · exact .fails (by simp only [step, hc, pwrite, getFd_nat hfd, h1, if_neg hw, h2, h3]) (.isDir (.inr rfl) rfl)
  | device dev =>
    obtain ⟨i, pos, nd, h1, h2, h3⟩ := hm
    by_cases hw : isRdonly f = true
    · exact .fails (by simp only [step, hc, pwrite, getFd_nat hfd, h1, hw, if_true]) (.noWrite rfl (by simp) (by simp) (rd_iff.1 hw))
    · have hk : dev ∈ [(1, 3), (1, 5), (1, 8), (1, 9)] := Classical.byContradiction fun g => hdev (.writeDev rfl (fun e => hw (rd_iff.2 e)) g)
      have hoff : ¬ off < 0 := fun g => hdev (.pwriteNeg g (fun e => hw (rd_iff.2 e)) (.inr ⟨_, rfl⟩))
      refine .works (fun e => ?_) ?_
      · simp only [step, hc, pwrite, getFd_nat hfd, h1, if_neg hw, h2, h3]
        exact writeChr_known hk _ e
      · rw [rd_iff] at hw; noreason
  | pipe =>
    obtain ⟨id, h1⟩ := hm
    exact .fails (by simp only [step, hc, pwrite, getFd_nat hfd, h1]) (.noSeek rfl rfl (by simp))
  | stream k => exact .fails (by simp only [step, hc, pwrite, getFd_nat hfd, hm]) (.noSeek rfl rfl (by simp))
  | epoll => exact .fails (by simp only [step, hc, pwrite, getFd_nat hfd, hm]) (.noSeek rfl rfl (by simp))
  | socket => exact .fails (by simp only [step, hc, pwrite, getFd_nat hfd, hm]) (.noSeek rfl rfl (by simp))

theorem told_lseek {s : State} {c fd : Nat} (hfd : fd < 1024) {t : Thing} {f : BitVec 32} (hr : Refers s c fd t f) (off wh : Int)
    (hdev : ¬ Deviates s c (.lseek fd off wh) t f) : Told s c (.lseek fd off wh) t f := by
  obtain ⟨cg, hc, hm⟩ := refers_slot hr
  cases t with
  | closed => exact .fails (by simp only [step, hc, lseek, getFd_nat hfd, hm]) .bad
  | regular pos size =>
    obtain ⟨i, nd, h1, h2, h3, h4⟩ := hm
    have e0 : step s c (.lseek fd off wh) = match seekTo pos size off wh with
        | none => (s, .r (.err .EINVAL))
        | some v => if v < 0 then (s, .r (.err .EINVAL)) else (s.setFd c fd (some (.file i v.toNat f)), .r (.ok (toI32 v))) := by
      simp only [step, hc, lseek, getFd_nat hfd, h1, h2, h3, h4, Int.toNat_natCast]; rfl
    cases ht : seekTo pos size off wh with
    | none => rw [ht] at e0; exact .fails e0 (.seekReg (by rw [ht]; simp))
    | some v =>
      rw [ht] at e0
      simp only at e0
      by_cases hv : v < 0
      · rw [if_pos hv] at e0; exact .fails e0 (.seekReg (by rw [ht]; simpa using hv))
      · rw [if_neg hv] at e0
        refine .works (fun e => by rw [e0]; simp [Out.r]) ?_
        noreason
  | directory pos k =>
    obtain ⟨i, nd, h1, h2, h3, h4⟩ := hm
    have e0 : step s c (.lseek fd off wh) = match seekTo pos k off wh with
        | none => (s, .r (.err .EINVAL))
        | some v => if v < 0 then (s, .r (.err .EINVAL)) else if v > k then (s, .r (.err .EINVAL))
          else (s.setFd c fd (some (.file i v.toNat f)), .r (.ok (toI32 v))) := by
      simp only [step, hc, lseek, getFd_nat hfd, h1, h2, h3, h4, Int.toNat_natCast]; rfl
    cases ht : seekTo pos k off wh with
    | none => rw [ht] at e0; exact .fails e0 (.seekDir (by rw [ht]; simp))
    | some v =>
      rw [ht] at e0
      simp only at e0
      by_cases hv : v < 0
      · rw [if_pos hv] at e0; exact .fails e0 (.seekDir (by rw [ht]; simpa using hv))
      · rw [if_neg hv, if_neg (fun g => hdev (.seekDir ht g))] at e0
        refine .works (fun e => by rw [e0]; simp [Out.r]) ?_
        noreason
  | device dev =>
    obtain ⟨i, pos, nd, h1, h2, h3⟩ := hm
    have hw : wh ∈ [0, 1, 2] := Classical.byContradiction fun g => hdev (.seekDev g)
    refine .works (fun e => ?_) ?_
    · simp only [step, hc, lseek, getFd_nat hfd, h1, h2, h3]; simp [Out.r]
    · noreason
  | pipe =>
    obtain ⟨id, h1⟩ := hm
    exact .fails (by simp only [step, hc, lseek, getFd_nat hfd, h1]) (.noSeek rfl rfl (by simp))
  | stream k => exact .fails (by simp only [step, hc, lseek, getFd_nat hfd, hm]) (.noSeek rfl rfl (by simp))
  | epoll => exact .fails (by simp only [step, hc, lseek, getFd_nat hfd, hm]) (.noSeek rfl rfl (by simp))
  | socket => exact .fails (by simp only [step, hc, lseek, getFd_nat hfd, hm]) (.noSeek rfl rfl (by simp))

theorem told_fstat {s : State} {c fd : Nat} (hfd : fd < 1024) {t : Thing} {f : BitVec 32} (hr : Refers s c fd t f)
    (hdev : ¬ Deviates s c (.fstat fd) t f) : Told s c (.fstat fd) t f := by
  obtain ⟨cg, hc, hm⟩ := refers_slot hr
  cases t with
  | closed => exact .fails (by simp only [step, hc, fstat, getFd_nat hfd, hm]) .bad
  | regular pos size =>
    obtain ⟨i, nd, h1, h2, h3, h4⟩ := hm
    exact .works (fun e => by simp only [step, hc, fstat, getFd_nat hfd, h1, h2]; simp) (by noreason)
  | directory pos k =>
    obtain ⟨i, nd, h1, h2, h3, h4⟩ := hm
    exact .works (fun e => by simp only [step, hc, fstat, getFd_nat hfd, h1, h2]; simp) (by noreason)
  | device dev =>
    obtain ⟨i, pos, nd, h1, h2, h3⟩ := hm
    exact .works (fun e => by simp only [step, hc, fstat, getFd_nat hfd, h1, h2]; simp) (by noreason)
  | pipe =>
    obtain ⟨id, h1⟩ := hm
    exact .works (fun e => by simp only [step, hc, fstat, getFd_nat hfd, h1]; simp) (by noreason)
  | stream k => exact .works (fun e => by simp only [step, hc, fstat, getFd_nat hfd, hm]; simp) (by noreason)
  | epoll => exact .works (fun e => by simp only [step, hc, fstat, getFd_nat hfd, hm]; simp) (by noreason)
  | socket => exact absurd .statSock hdev

theorem chmodIno_told {fs : Fs} {i : Nat} {nd : Inode} (h : fs.inodes i = some nd) {m : BitVec 32} (hm : m &&& 0o777#32 = m) (e : Errno) :
    (fs.chmodIno i m).2 ≠ .err e := by
  simp only [Fs.chmodIno, if_pos (show m &&& sIRWXA = m from hm), h]; simp

theorem told_fchmod {s : State} {c fd : Nat} (hfd : fd < 1024) {t : Thing} {f : BitVec 32} (hr : Refers s c fd t f) (m : BitVec 32)
    (hdev : ¬ Deviates s c (.fchmod fd m) t f) : Told s c (.fchmod fd m) t f := by
  obtain ⟨cg, hc, hm⟩ := refers_slot hr
  cases t with
  | closed => exact .fails (by simp only [step, hc, fchmod, getFd_nat hfd, hm]) .bad
  | regular pos size =>
    obtain ⟨i, nd, h1, h2, h3, h4⟩ := hm
    have hmm : m &&& 0o777#32 = m := Classical.byContradiction fun g => hdev (.chmodBits (by simp) g)
    exact .works (fun e => by simp only [step, hc, fchmod, getFd_nat hfd, h1, State.onFs, Out.r]; exact chmodIno_told h2 hmm e) (by noreason)
  | directory pos k =>
    obtain ⟨i, nd, h1, h2, h3, h4⟩ := hm
    have hmm : m &&& 0o777#32 = m := Classical.byContradiction fun g => hdev (.chmodBits (by simp) g)
    exact .works (fun e => by simp only [step, hc, fchmod, getFd_nat hfd, h1, State.onFs, Out.r]; exact chmodIno_told h2 hmm e) (by noreason)
  | device dev =>
    obtain ⟨i, pos, nd, h1, h2, h3⟩ := hm
    have hmm : m &&& 0o777#32 = m := Classical.byContradiction fun g => hdev (.chmodBits (by simp) g)
    exact .works (fun e => by simp only [step, hc, fchmod, getFd_nat hfd, h1, State.onFs, Out.r]; exact chmodIno_told h2 hmm e) (by noreason)
  | pipe => exact absurd (.chmodOther rfl (by simp)) hdev
  | stream k => exact absurd (.chmodOther rfl (by simp)) hdev
  | epoll => exact absurd (.chmodOther rfl (by simp)) hdev
  | socket => exact absurd (.chmodOther rfl (by simp)) hdev

theorem told_fchdir {s : State} {c fd : Nat} (hfd : fd < 1024) {t : Thing} {f : BitVec 32} (hr : Refers s c fd t f)
    (hdev : ¬ Deviates s c (.fchdir fd) t f)
    (hel : ¬ Elsewhere (.fchdir fd) t f) : Told s c (.fchdir fd) t f := by
  obtain ⟨cg, hc, hm⟩ := refers_slot hr
  cases t with
  | closed => exact .fails (by simp only [step, hc, fchdir, getFd_nat hfd, hm]) .bad
  | regular pos size =>
    obtain ⟨i, nd, h1, h2, h3, h4⟩ := hm
    exact .fails (by simp only [step, hc, fchdir, getFd_nat hfd, h1, pathOf, h2, Inode.isDir, h3]; rfl) (.enterOther rfl (by simp))
  | directory pos k => exact absurd (.inr ⟨rfl, _, rfl⟩) hel
  | device dev =>
    obtain ⟨i, pos, nd, h1, h2, h3⟩ := hm
    exact .fails (by simp only [step, hc, fchdir, getFd_nat hfd, h1, pathOf, h2, Inode.isDir, h3]; rfl) (.enterOther rfl (by simp))
  | pipe =>
    obtain ⟨id, h1⟩ := hm
    exact .fails (by simp only [step, hc, fchdir, getFd_nat hfd, h1]) (.enterOther rfl (by simp))
  | stream k => exact .fails (by simp only [step, hc, fchdir, getFd_nat hfd, hm]) (.enterOther rfl (by simp))
  | epoll => exact .fails (by simp only [step, hc, fchdir, getFd_nat hfd, hm]) (.enterOther rfl (by simp))
  | socket => exact .fails (by simp only [step, hc, fchdir, getFd_nat hfd, hm]) (.enterOther rfl (by simp))

theorem told_getdents {s : State} {c fd : Nat} (hfd : fd < 1024) {t : Thing} {f : BitVec 32} (hr : Refers s c fd t f) (b : Nat)
    (hdev : ¬ Deviates s c (.getdents fd b) t f) : Told s c (.getdents fd b) t f := by
  obtain ⟨cg, hc, hm⟩ := refers_slot hr
  cases t with
  | closed =>
    by_cases hb : b ≤ 18
    · exact .fails (by simp only [step, hc, getdents]; rw [if_pos (show b ≤ Getdents.clipped from hb)]) (.listShort hb)
    · exact .fails (by simp only [step, hc, getdents]; rw [if_neg (show ¬ b ≤ Getdents.clipped from hb)]; simp only [getFd_nat hfd, hm]) .bad
  | regular pos size =>
    obtain ⟨i, nd, h1, h2, h3, h4⟩ := hm
    by_cases hb : b ≤ 18
    · exact .fails (by simp only [step, hc, getdents]; rw [if_pos (show b ≤ Getdents.clipped from hb)]) (.listShort hb)
    · exact .fails (by
        simp only [step, hc, getdents]; rw [if_neg (show ¬ b ≤ Getdents.clipped from hb)]
        simp only [getFd_nat hfd, h1, h2, Inode.isDir, h3]; rfl) (.listOther rfl (by simp))
  | directory pos k =>
    obtain ⟨i, nd, h1, h2, h3, h4⟩ := hm
    by_cases hb : b ≤ 18
    · exact .fails (by simp only [step, hc, getdents]; rw [if_pos (show b ≤ Getdents.clipped from hb)]) (.listShort hb)
    · refine .works (fun e => ?_) (by noreason)
      simp only [step, hc, getdents]; rw [if_neg (show ¬ b ≤ Getdents.clipped from hb)]
      simp only [getFd_nat hfd, h1, h2, Inode.isDir, h3, if_true]
      simp only [Getdents.getdents, if_neg (show ¬ b ≤ Getdents.clipped from hb)]
      (repeat' split) <;> simp
  | device dev =>
    obtain ⟨i, pos, nd, h1, h2, h3⟩ := hm
    by_cases hb : b ≤ 18
    · exact .fails (by simp only [step, hc, getdents]; rw [if_pos (show b ≤ Getdents.clipped from hb)]) (.listShort hb)
    · exact .fails (by
        simp only [step, hc, getdents]; rw [if_neg (show ¬ b ≤ Getdents.clipped from hb)]
        simp only [getFd_nat hfd, h1, h2, Inode.isDir, h3]; rfl) (.listOther rfl (by simp))
  | pipe =>
    by_cases hb : b ≤ 18
    · exact .fails (by simp only [step, hc, getdents]; rw [if_pos (show b ≤ Getdents.clipped from hb)]) (.listShort hb)
    · exact absurd (.listOther rfl (by simp) (by omega)) hdev
  | stream k =>
    by_cases hb : b ≤ 18
    · exact .fails (by simp only [step, hc, getdents]; rw [if_pos (show b ≤ Getdents.clipped from hb)]) (.listShort hb)
    · exact absurd (.listOther rfl (by simp) (by omega)) hdev
  | epoll =>
    by_cases hb : b ≤ 18
    · exact .fails (by simp only [step, hc, getdents]; rw [if_pos (show b ≤ Getdents.clipped from hb)]) (.listShort hb)
    · exact absurd (.listOther rfl (by simp) (by omega)) hdev
  | socket =>
    by_cases hb : b ≤ 18
    · exact .fails (by simp only [step, hc, getdents]; rw [if_pos (show b ≤ Getdents.clipped from hb)]) (.listShort hb)
    · exact absurd (.listOther rfl (by simp) (by omega)) hdev

theorem told_ftruncate {s : State} {c fd : Nat} (hfd : fd < 1024) {t : Thing} {f : BitVec 32} (hr : Refers s c fd t f) (len : Int)
    (hdev : ¬ Deviates s c (.ftruncate fd len) t f) : Told s c (.ftruncate fd len) t f := by
  obtain ⟨cg, hc, hm⟩ := refers_slot hr
  cases t with
  | closed => exact .fails (by simp only [step, hc, ftruncate, getFd_nat hfd, hm]) .bad
  | regular pos size =>
    obtain ⟨i, nd, h1, h2, h3, h4⟩ := hm
    by_cases hw : isRdonly f = true
    · exact .fails (by simp only [step, hc, ftruncate, getFd_nat hfd, h1, hw, if_true]) (.noTrunc (rd_iff.1 hw))
    by_cases hl : len < 0
    · exact .fails (by simp only [step, hc, ftruncate, getFd_nat hfd, h1, if_neg hw, State.onFs, Fs.truncIno, if_pos hl]) (.truncNeg hl)
    · refine .works (fun e => ?_) (by rw [rd_iff] at hw; noreason)
      simp only [step, hc, ftruncate, getFd_nat hfd, h1, if_neg hw, State.onFs, Fs.truncIno, if_neg hl, h2, h3, Out.r]
      (repeat' split) <;> simp
  | directory pos k =>
    obtain ⟨i, nd, h1, h2, h3, h4⟩ := hm
    by_cases hw : isRdonly f = true
    · exact .fails (by simp only [step, hc, ftruncate, getFd_nat hfd, h1, hw, if_true]) (.noTrunc (rd_iff.1 hw))
    by_cases hl : len < 0
    · exact .fails (by simp only [step, hc, ftruncate, getFd_nat hfd, h1, if_neg hw, State.onFs, Fs.truncIno, if_pos hl]) (.truncNeg hl)
    · exact .fails (by simp only [step, hc, ftruncate, getFd_nat hfd, h1, if_neg hw, State.onFs, Fs.truncIno, if_neg hl, h2, h3]) (.truncDir rfl)
  | device dev =>
    obtain ⟨i, pos, nd, h1, h2, h3⟩ := hm
    by_cases hw : isRdonly f = true
    · exact .fails (by simp only [step, hc, ftruncate, getFd_nat hfd, h1, hw, if_true]) (.noTrunc (rd_iff.1 hw))
    by_cases hl : len < 0
    · exact .fails (by simp only [step, hc, ftruncate, getFd_nat hfd, h1, if_neg hw, State.onFs, Fs.truncIno, if_pos hl]) (.truncNeg hl)
    · exact .fails (by simp only [step, hc, ftruncate, getFd_nat hfd, h1, if_neg hw, State.onFs, Fs.truncIno, if_neg hl, h2, h3]) (.truncOther rfl)
  | pipe =>
    obtain ⟨id, h1⟩ := hm
    exact .fails (by simp only [step, hc, ftruncate, getFd_nat hfd, h1]) (.truncOther rfl)
  | stream k => exact .fails (by simp only [step, hc, ftruncate, getFd_nat hfd, hm]) (.truncOther rfl)
  | epoll => exact .fails (by simp only [step, hc, ftruncate, getFd_nat hfd, hm]) (.truncOther rfl)
  | socket => exact .fails (by simp only [step, hc, ftruncate, getFd_nat hfd, hm]) (.truncOther rfl)

theorem refers_open {s : State} {c fd : Nat} {t : Thing} {f : BitVec 32} (hr : Refers s c fd t f) (ht : t ≠ .closed) :
    ∃ cg d, s.cages c = some cg ∧ cg.fds fd = some d ∧ (d.isEpoll = true ↔ t = .epoll) := by
  cases hr with
  | closed => exact absurd rfl ht
  | _ => exact ⟨_, _, ‹_›, ‹_›, by simp [Desc.isEpoll]⟩

theorem putCopy_told {s : State} (c : Nat) (d : Desc) (n : Nat) (e : Errno) : (s.putCopy c d n).2.ret ≠ .err e := by
  simp only [State.putCopy]
  split <;> simp [Out.r]

theorem told_close {s : State} (h : Reach s) {c fd : Nat} (hfd : fd < 1024) {t : Thing} {f : BitVec 32} (hr : Refers s c fd t f)
    (hdev : ¬ Deviates s c (.close fd) t f) : Told s c (.close fd) t f := by
  obtain ⟨cg, hc, hm⟩ := refers_slot hr
  by_cases ht : t = .closed
  · subst ht
    exact .fails (by simp only [step, hc, close, getFd_nat hfd, hm, State.closeSlot, Int.toNat_natCast]) .bad
  · obtain ⟨cg', d, hc', hd, -⟩ := refers_open hr ht
    rw [hc] at hc'; cases hc'
    refine .works (fun e => ?_) (by cases t <;> noreason)
    obtain ⟨s', e1, -⟩ := h.inv.closeSlot hc hd
    simp only [step, hc, close, getFd_nat hfd, hd, Int.toNat_natCast, e1]; simp [Out.r]

theorem told_dup {s : State} {c fd : Nat} (hfd : fd < 1024) {t : Thing} {f : BitVec 32} (hr : Refers s c fd t f)
    (hdev : ¬ Deviates s c (.dup fd) t f) : Told s c (.dup fd) t f := by
  obtain ⟨cg, hc, hm⟩ := refers_slot hr
  by_cases h0 : fd = 0
  · subst h0
    have ht : t ≠ .closed := by rintro rfl; exact hdev .dupZero
    refine .works (fun e => ?_) (by cases t <;> noreason)
    simp only [step, hc, dup]; simp [Out.r]
  have h0' : ¬ (fd : Int) = 0 := by omega
  by_cases ht : t = .closed
  · subst ht
    exact .fails (by simp only [step, hc, dup, if_neg h0', getFd_nat hfd, hm]) .bad
  · obtain ⟨cg', d, hc', hd, hep⟩ := refers_open hr ht
    rw [hc] at hc'; cases hc'
    have hne : ¬ d.isEpoll = true := fun g => by
      have := hep.1 g; subst this; exact hdev (.dupEpoll h0')
    refine .works (fun e => ?_) (by cases t <;> noreason)
    cases hn : nextFd cg.fds 0 with
    | none => exact absurd (.dupFull h0' ht hc (fun k hk => nextFd_none hn k (Nat.zero_le _) hk)) hdev
    | some k =>
      simp only [step, hc, dup, if_neg h0', getFd_nat hfd, hd, dupFrom, hn, if_neg hne]
      exact putCopy_told _ _ _ _

theorem told_dup2 {s : State} {c fd : Nat} (hfd : fd < 1024) {t : Thing} {f : BitVec 32} (hr : Refers s c fd t f) (new : Int)
    (hdev : ¬ Deviates s c (.dup2 fd new) t f) : Told s c (.dup2 fd new) t f := by
  obtain ⟨cg, hc, hm⟩ := refers_slot hr
  by_cases hn : new < 0 ∨ 1024 ≤ new
  · exact .fails (by simp only [step, hc, dup2]; rw [if_pos (by simp only [maxFd]; omega)]) (.dup2Range hn)
  have hn' : ¬ (new ≥ (maxFd : Nat) ∨ new < 0) := by simp only [maxFd]; omega
  by_cases hs : new = fd
  · subst hs
    have ht : t ≠ .closed := by rintro rfl; exact hdev (.dup2Self (by omega) (by omega))
    refine .works (fun e => ?_) (by cases t <;> noreason)
    simp only [step, hc, dup2, if_neg hn', if_true]; simp [Out.r]
  by_cases ht : t = .closed
  · subst ht
    exact .fails (by simp only [step, hc, dup2, if_neg hn', if_neg hs, getFd_nat hfd, hm]) .bad
  · obtain ⟨cg', d, hc', hd, hep⟩ := refers_open hr ht
    rw [hc] at hc'; cases hc'
    have hne : ¬ d.isEpoll = true := fun g => by
      have := hep.1 g; subst this; exact hdev (.dup2Epoll (fun e => hs e.symm) (by omega) (by omega))
    refine .works (fun e => ?_) (by cases t <;> noreason)
    simp only [step, hc, dup2, if_neg hn', if_neg hs, getFd_nat hfd, hd]
    rw [if_neg hne]
    cases cg.fds new.toNat with
    | none => exact putCopy_told _ _ _ _
    | some dn =>
      simp only
      split
      · simp [Out.r]
      · exact putCopy_told _ _ _ _

theorem told_fcntl {s : State} {c fd : Nat} (hfd : fd < 1024) {t : Thing} {f : BitVec 32} (hr : Refers s c fd t f) (cmd : Int) (arg : BitVec 32)
    (hdev : ¬ Deviates s c (.fcntl fd cmd arg) t f) : Told s c (.fcntl fd cmd arg) t f := by
  obtain ⟨cg, hc, hm⟩ := refers_slot hr
  by_cases ht : t = .closed
  · subst ht
    exact .fails (by simp only [step, hc, fcntl, getFd_nat hfd, hm]) .bad
  obtain ⟨cg', d, hc', hd, hep⟩ := refers_open hr ht
  rw [hc] at hc'; cases hc'
  have hneg : cmd = 2 ∨ cmd = 4 ∨ cmd = 8 → arg.toInt ≥ 0 := fun g =>
    Classical.byContradiction fun g' => hdev (.setNeg g (by omega) ht)
  by_cases h1 : cmd = 1
  · subst h1
    refine .works (fun e => ?_) (by cases t <;> noreason)
    simp only [step, hc, fcntl, getFd_nat hfd, hd, if_true]; simp [Out.r]
  by_cases h2 : cmd = 2
  · subst h2
    have := hneg (.inl rfl)
    refine .works (fun e => ?_) (by cases t <;> noreason)
    simp only [step, hc, fcntl, getFd_nat hfd, hd, if_neg h1, this, and_self, if_true]
    split <;> simp [Out.r]
  by_cases h3 : cmd = 3
  · subst h3
    refine .works (fun e => ?_) (by cases t <;> noreason)
    simp only [step, hc, fcntl, getFd_nat hfd, hd, if_neg h1, h2, false_and, if_false, if_true]; simp [Out.r]
  by_cases h4 : cmd = 4
  · subst h4
    have := hneg (.inr (.inl rfl))
    refine .works (fun e => ?_) (by cases t <;> noreason)
    simp only [step, hc, fcntl, getFd_nat hfd, hd, if_neg h1, h2, h3, false_and, if_false, this, and_self, if_true]; simp [Out.r]
  by_cases h0 : cmd = 0
  · subst h0
    by_cases ha : arg.toInt ≥ 0
    · have hne : ¬ d.isEpoll = true := fun g => by
        have := hep.1 g; subst this; exact hdev (.dupfdEpoll ha)
      refine .works (fun e => ?_) (by
        have ha' : ¬ arg.toInt < 0 := by omega
        cases t <;> noreason)
      simp only [step, hc, fcntl, getFd_nat hfd, hd, if_neg h1, h2, h3, h4, false_and, if_false, ha, and_self, if_true, dupFrom]
      cases hn : nextFd cg.fds arg.toNat with
      | none => exact absurd (.dupfdFull ht hc ha (fun k hk hk' => nextFd_none hn k hk hk')) hdev
      | some k =>
        simp only [if_neg hne]
        exact putCopy_told _ _ _ _
    · refine .fails ?_ (.dupArg (by omega))
      simp only [step, hc, fcntl, getFd_nat hfd, hd, if_neg h1, h2, h3, h4, false_and, if_false, ha, and_false]
      simp
  by_cases h9 : cmd = 9
  · subst h9
    refine .works (fun e => ?_) (by cases t <;> noreason)
    simp only [step, hc, fcntl, getFd_nat hfd, hd, if_neg h1, h2, h3, h4, h0, false_and, if_false, if_true]; simp [Out.r]
  by_cases h8 : cmd = 8
  · subst h8
    have := hneg (.inr (.inr rfl))
    refine .works (fun e => ?_) (by cases t <;> noreason)
    simp only [step, hc, fcntl, getFd_nat hfd, hd, if_neg h1, h2, h3, h4, h0, h9, false_and, if_false, this, and_self, if_true]; simp [Out.r]
  refine .fails ?_ (.command (by simp [h0, h1, h2, h3, h4, h8, h9]))
  simp only [step, hc, fcntl, getFd_nat hfd, hd, if_neg h1, h2, h3, h4, h0, h8, h9, false_and, if_false]

/-- C76.  A call on a descriptor that is answered with an error has a reason for that error, and changes nothing; and if there is a reason,
the call is answered with an error.  This holds of every call of `subject`, on whatever the descriptor is open, except in the cases of
`Deviates`. -/
theorem fd_answer_partial {s : State} (h : Reach s) {c : Nat} {op : Op} {fd : Nat} (hs : subject op = some (fd : Int)) (hfd : fd < 1024)
    {t : Thing} {f : BitVec 32} (hr : Refers s c fd t f) (hdev : ¬ Deviates s c op t f) (hel : ¬ Elsewhere op t f) :
    (∀ e, (step s c op).2.ret = .err e → Reason op t f e ∧ (step s c op).1 = s) ∧
    ((∃ e, Reason op t f e) → ∃ e, (step s c op).2.ret = .err e) := by
  show Told s c op t f
  cases op with
  | read x n => cases hs; exact told_read hfd hr n hdev hel
  | pread x n off => cases hs; exact told_pread hfd hr n off hdev
  | write x data => cases hs; exact told_write hfd hr data hdev hel
  | pwrite x data off => cases hs; exact told_pwrite hfd hr data off hdev
  | writev x iovs => cases hs; exact told_writev hfd hr iovs hdev hel
  | lseek x off wh => cases hs; exact told_lseek hfd hr off wh hdev
  | fstat x => cases hs; exact told_fstat hfd hr hdev
  | fchmod x m => cases hs; exact told_fchmod hfd hr m hdev
  | fchdir x => cases hs; exact told_fchdir hfd hr hdev hel
  | getdents x b => cases hs; exact told_getdents hfd hr b hdev
  | ftruncate x len => cases hs; exact told_ftruncate hfd hr len hdev
  | close x => cases hs; exact told_close h hfd hr hdev
  | dup x => cases hs; exact told_dup hfd hr hdev
  | dup2 x new => cases hs; exact told_dup2 hfd hr new hdev
  | fcntl x cmd arg => cases hs; exact told_fcntl hfd hr cmd arg hdev
  | _ => cases hs

/-- Either a reason is missing or an error is. -/
theorem not_told {s : State} {c : Nat} {op : Op} {t : Thing} {f : BitVec 32}
    (h : (∃ e, (step s c op).2.ret = .err e ∧ ¬ Reason op t f e) ∨ ((∃ e, Reason op t f e) ∧ ∀ e, (step s c op).2.ret ≠ .err e)) :
    ¬ Told s c op t f := by
  rintro ⟨h1, h2⟩
  rcases h with ⟨e, he, hn⟩ | ⟨hr, hn⟩
  · exact hn (h1 e he).1
  · obtain ⟨e, he⟩ := h2 hr
    exact hn e he

/-- C76.  The cases of `Deviates` are the only ones that had to be left out: in each of them the answer is an error without a reason, or there
is a reason and no error. -/
theorem deviates {s : State} (h : Reach s) {c : Nat} {op : Op} {fd : Nat} (hs : subject op = some (fd : Int)) (hfd : fd < 1024)
    {t : Thing} {f : BitVec 32} (hr : Refers s c fd t f) (hdev : Deviates s c op t f) :
    (∃ e, (step s c op).2.ret = .err e ∧ ¬ Reason op t f e) ∨ ((∃ e, Reason op t f e) ∧ ∀ e, (step s c op).2.ret ≠ .err e) := by
  obtain ⟨cg, hc, hm⟩ := refers_slot hr
  cases hdev with
  | streamRead => cases hs; exact .inl ⟨.EOPNOTSUPP, by simp only [step, hc, read, getFd_nat hfd, hm, Out.r], by noreason1⟩
  | @streamWrite _ data k _ g =>
    cases hs
    by_cases hk : k = 1 ∨ k = 2
    · have hf : f &&& 3#32 = 0#32 := Classical.byContradiction fun g' => g ⟨fun _ => g', fun _ => hk⟩
      exact .inr ⟨⟨_, .noWrite rfl (by simp) (by simp) hf⟩, fun e => by simp only [step, hc, write, getFd_nat hfd, hm, if_pos hk]; simp [Out.r]⟩
    · have hf : ¬ f &&& 3#32 = 0#32 := fun g' => g ⟨fun a => absurd a hk, fun a => absurd g' a⟩
      exact .inl ⟨.EBADF, by simp only [step, hc, write, getFd_nat hfd, hm, if_neg hk, Out.r], by noreason1⟩
  | streamWritev g =>
    cases hs
    exact .inr ⟨⟨_, .noWrite rfl (by simp) (by simp) g⟩, fun e => by simp only [step, hc, writev, getFd_nat hfd, hm]; simp [Out.r]⟩
  | @readDev _ dev _ hrd hf hk =>
    obtain ⟨i, pos, nd, h1, h2, h3⟩ := hm
    have hw : ¬ isWronly f = true := fun e => hf (wr_iff.1 e)
    refine .inl ⟨.EOPNOTSUPP, ?_, by noreason1⟩
    cases op <;> simp only [reads, Bool.false_eq_true] at hrd
    · cases hs; simp only [step, hc, read, getFd_nat hfd, h1, if_neg hw, h2, h3]; exact readChr_unknown hk _
    · cases hs; simp only [step, hc, pread, getFd_nat hfd, h1, if_neg hw, h2, h3]; exact readChr_unknown hk _
  | @writeDev _ dev _ hrd hf hk =>
    obtain ⟨i, pos, nd, h1, h2, h3⟩ := hm
    have hw : ¬ isRdonly f = true := fun e => hf (rd_iff.1 e)
    refine .inl ⟨.EOPNOTSUPP, ?_, by noreason1⟩
    cases op <;> simp only [writes, Bool.false_eq_true] at hrd
    · cases hs; simp only [step, hc, write, getFd_nat hfd, h1, if_neg hw, h2, h3]; exact writeChr_unknown hk _
    · cases hs; simp only [step, hc, pwrite, getFd_nat hfd, h1, if_neg hw, h2, h3]; exact writeChr_unknown hk _
    · cases hs; simp only [step, hc, writev, getFd_nat hfd, h1, if_neg hw, h2, h3]; exact writeChr_unknown hk _
  | preadNeg ho hf ht =>
    cases hs
    have hw : ¬ isWronly f = true := fun e => hf (wr_iff.1 e)
    cases t <;> simp [Thing.isRegular] at ht
    · obtain ⟨i, nd, h1, h2, h3, h4⟩ := hm
      exact .inr ⟨⟨_, .preadNeg ho⟩, fun e => by
        simp only [step, hc, pread, getFd_nat hfd, h1, if_neg hw, h2, h3, if_pos ho]; simp [Out.r]⟩
    · obtain ⟨i, pos, nd, h1, h2, h3⟩ := hm
      rename_i dev
      by_cases hk : dev ∈ [(1, 3), (1, 5), (1, 8), (1, 9)]
      · exact .inr ⟨⟨_, .preadNeg ho⟩, fun e => by
          simp only [step, hc, pread, getFd_nat hfd, h1, if_neg hw, h2, h3]; exact readChr_known hk _ e⟩
      · exact .inl ⟨.EOPNOTSUPP, by
          simp only [step, hc, pread, getFd_nat hfd, h1, if_neg hw, h2, h3]; exact readChr_unknown hk _, by noreason1⟩
  | pwriteNeg ho hf ht =>
    cases hs
    have hw : ¬ isRdonly f = true := fun e => hf (rd_iff.1 e)
    cases t <;> simp [Thing.isRegular] at ht
    · obtain ⟨i, nd, h1, h2, h3, h4⟩ := hm
      exact .inr ⟨⟨_, .pwriteNeg ho⟩, fun e => by
        simp only [step, hc, pwrite, getFd_nat hfd, h1, if_neg hw, h2, h3, if_pos ho]; simp [Out.r]⟩
    · obtain ⟨i, pos, nd, h1, h2, h3⟩ := hm
      rename_i dev
      by_cases hk : dev ∈ [(1, 3), (1, 5), (1, 8), (1, 9)]
      · exact .inr ⟨⟨_, .pwriteNeg ho⟩, fun e => by
          simp only [step, hc, pwrite, getFd_nat hfd, h1, if_neg hw, h2, h3]; exact writeChr_known hk _ e⟩
      · exact .inl ⟨.EOPNOTSUPP, by
          simp only [step, hc, pwrite, getFd_nat hfd, h1, if_neg hw, h2, h3]; exact writeChr_unknown hk _, by noreason1⟩
  | @seekDir _ off wh pos k _ v hv hk =>
    cases hs
    obtain ⟨i, nd, h1, h2, h3, h4⟩ := hm
    have e0 : step s c (.lseek fd off wh) = match seekTo pos k off wh with
        | none => (s, .r (.err .EINVAL))
        | some v => if v < 0 then (s, .r (.err .EINVAL)) else if v > k then (s, .r (.err .EINVAL))
          else (s.setFd c fd (some (.file i v.toNat f)), .r (.ok (toI32 v))) := by
      simp only [step, hc, lseek, getFd_nat hfd, h1, h2, h3, h4, Int.toNat_natCast]; rfl
    rw [hv] at e0
    simp only at e0
    rw [if_neg (by omega), if_pos hk] at e0
    refine .inl ⟨.EINVAL, by rw [e0]; rfl, ?_⟩
    intro he
    cases he with
    | seekDir g => have := g v hv; omega
  | @seekDev _ off wh dev _ hw =>
    cases hs
    obtain ⟨i, pos, nd, h1, h2, h3⟩ := hm
    exact .inr ⟨⟨_, .whence hw⟩, fun e => by simp only [step, hc, lseek, getFd_nat hfd, h1, h2, h3]; simp [Out.r]⟩
  | listOther h1 h2 hb =>
    cases hs
    refine .inl ⟨.ESPIPE, ?_, by intro he; cases he <;> simp_all [reads, writes, seeks] <;> omega⟩
    cases t <;> simp [Thing.seekable] at h1 h2
    all_goals
      simp only [step, hc, getdents]
      rw [if_neg (show ¬ _ ≤ Getdents.clipped from by simp only [Getdents.clipped]; omega)]
    · obtain ⟨id, hm⟩ := hm; simp only [getFd_nat hfd, hm, Out.r]
    · simp only [getFd_nat hfd, hm, Out.r]
    · simp only [getFd_nat hfd, hm, Out.r]
    · simp only [getFd_nat hfd, hm, Out.r]
  | statSock => cases hs; exact .inl ⟨.EOPNOTSUPP, by simp only [step, hc, fstat, getFd_nat hfd, hm, Out.r], by noreason1⟩
  | chmodOther h1 h2 =>
    cases hs
    refine .inl ⟨.EINVAL, ?_, by noreason1⟩
    cases t <;> simp [Thing.seekable] at h1 h2
    · obtain ⟨id, hm⟩ := hm; simp only [step, hc, fchmod, getFd_nat hfd, hm, Out.r]
    · simp only [step, hc, fchmod, getFd_nat hfd, hm, Out.r]
    · simp only [step, hc, fchmod, getFd_nat hfd, hm, Out.r]
    · simp only [step, hc, fchmod, getFd_nat hfd, hm, Out.r]
  | @chmodBits _ m _ _ h1 h2 =>
    cases hs
    refine .inl ⟨.EINVAL, ?_, by noreason1⟩
    have h2' : ¬ m &&& sIRWXA = m := h2
    cases t with
    | closed => exact absurd rfl h1
    | regular _ _ => obtain ⟨i, nd, hm, -⟩ := hm; simp only [step, hc, fchmod, getFd_nat hfd, hm, State.onFs, Fs.chmodIno, if_neg h2', Out.r]
    | directory _ _ => obtain ⟨i, nd, hm, -⟩ := hm; simp only [step, hc, fchmod, getFd_nat hfd, hm, State.onFs, Fs.chmodIno, if_neg h2', Out.r]
    | device _ => obtain ⟨i, pos, nd, hm, -⟩ := hm; simp only [step, hc, fchmod, getFd_nat hfd, hm, State.onFs, Fs.chmodIno, if_neg h2', Out.r]
    | pipe => obtain ⟨id, hm⟩ := hm; simp only [step, hc, fchmod, getFd_nat hfd, hm, Out.r]
    | _ => simp only [step, hc, fchmod, getFd_nat hfd, hm, Out.r]
  | writevEpoll => cases hs; exact .inl ⟨.EOPNOTSUPP, by simp only [step, hc, writev, getFd_nat hfd, hm, Out.r], by noreason1⟩
  | dupEpoll h0 =>
    cases hs
    refine .inl ?_
    · cases hn : nextFd cg.fds 0 with
      | none => exact ⟨.ENFILE, by simp only [step, hc, dup, if_neg h0, getFd_nat hfd, hm, dupFrom, hn, Out.r], by noreason1⟩
      | some k => exact ⟨.EACCES, by simp only [step, hc, dup, if_neg h0, getFd_nat hfd, hm, dupFrom, hn, Desc.isEpoll, if_true, Out.r], by noreason1⟩
  | dup2Epoll h1 h2 h3 =>
    cases hs
    rename_i new
    refine .inl ⟨.EACCES, ?_, by intro he; cases he <;> simp_all [reads, writes, seeks]⟩
    have hn' : ¬ (new ≥ (maxFd : Nat) ∨ new < 0) := by simp only [maxFd]; omega
    simp only [step, hc, dup2, if_neg hn', if_neg (fun e => h1 (Eq.symm e)), getFd_nat hfd, hm, Desc.isEpoll, if_true]
    cases hq : cg.fds new.toNat with
    | none => simp [Out.r]
    | some dn =>
      have : (s.drop dn).2 ≠ .panic := by
        intro g
        obtain ⟨s', e1, -⟩ := h.inv.closeSlot hc hq
        simp only [State.closeSlot] at e1
        split at e1
        · rename_i e2; rw [e2] at g; cases g
        · rename_i e2; rw [e2] at g; cases g; cases e1
      simp only
      split
      · rename_i g; exact absurd g this
      · rfl
  | @dupfdEpoll _ arg _ ha =>
    cases hs
    refine .inl ?_
    cases hn : nextFd cg.fds arg.toNat with
    | none => exact ⟨.ENFILE, by simp [step, hc, fcntl, getFd_nat hfd, hm, ha, dupFrom, hn, Out.r], by
        intro he; cases he <;> simp_all [reads, writes, seeks]⟩
    | some k => exact ⟨.EACCES, by simp [step, hc, fcntl, getFd_nat hfd, hm, ha, dupFrom, hn, Out.r, Desc.isEpoll], by
        intro he; cases he <;> simp_all [reads, writes, seeks]⟩
  | @dupFull _ _ _ cg' h0 ht hc' hall =>
    cases hs
    rw [hc] at hc'; cases hc'
    obtain ⟨cg', d, hc', hd, hep⟩ := refers_open hr ht
    rw [hc] at hc'; cases hc'
    have hn : nextFd cg.fds 0 = none := by
      cases hn : nextFd cg.fds 0 with
      | none => rfl
      | some k => exact absurd (nextFd_some hn).2.2.1 (hall k (nextFd_some hn).2.1)
    exact .inl ⟨.ENFILE, by simp only [step, hc, dup, if_neg h0, getFd_nat hfd, hd, dupFrom, hn, Out.r], by cases t <;> noreason1⟩
  | @dupfdFull _ arg _ _ cg' ht hc' ha hall =>
    cases hs
    rw [hc] at hc'; cases hc'
    obtain ⟨cg', d, hc', hd, hep⟩ := refers_open hr ht
    rw [hc] at hc'; cases hc'
    have hn : nextFd cg.fds arg.toNat = none := by
      cases hn : nextFd cg.fds arg.toNat with
      | none => rfl
      | some k => exact absurd (nextFd_some hn).2.2.1 (hall k (nextFd_some hn).1 (nextFd_some hn).2.1)
    exact .inl ⟨.ENFILE, by simp [step, hc, fcntl, getFd_nat hfd, hd, ha, dupFrom, hn, Out.r], by
      intro he; cases he <;> simp_all [reads, writes, seeks]⟩
  | dupZero =>
    have : fd = 0 := by simp only [subject] at hs; simp at hs; omega
    subst this
    exact .inr ⟨⟨_, .bad⟩, fun e => by simp only [step, hc, dup]; simp [Out.r]⟩
  | dup2Self h1 h2 =>
    cases hs
    have hn' : ¬ ((fd : Int) ≥ (maxFd : Nat) ∨ (fd : Int) < 0) := by simp only [maxFd]; omega
    exact .inr ⟨⟨_, .bad⟩, fun e => by simp only [step, hc, dup2, if_neg hn', if_true]; simp [Out.r]⟩
  | @setNeg _ cmd arg _ _ hcmd ha ht =>
    cases hs
    obtain ⟨cg', d, hc', hd, hep⟩ := refers_open hr ht
    rw [hc] at hc'; cases hc'
    have ha' : ¬ arg.toInt ≥ 0 := by omega
    refine .inl ⟨.EINVAL, ?_, ?_⟩
    · rcases hcmd with rfl | rfl | rfl <;> simp [step, hc, fcntl, getFd_nat hfd, hd, ha', Out.r]
    · rcases hcmd with rfl | rfl | rfl <;> (intro he; cases he <;> simp_all [reads, writes, seeks])

/-- C76.  So outside pipes and `fchdir` of a directory, a call is answered as it should be exactly when it is not one of `Deviates`. -/
theorem fd_answer_iff {s : State} (h : Reach s) {c : Nat} {op : Op} {fd : Nat} (hs : subject op = some (fd : Int)) (hfd : fd < 1024)
    {t : Thing} {f : BitVec 32} (hr : Refers s c fd t f) (hel : ¬ Elsewhere op t f) :
    ((∀ e, (step s c op).2.ret = .err e → Reason op t f e ∧ (step s c op).1 = s) ∧
     ((∃ e, Reason op t f e) → ∃ e, (step s c op).2.ret = .err e)) ↔ ¬ Deviates s c op t f :=
  ⟨fun ht hd => not_told (deviates h hs hfd hr hd) ht, fun hd => fd_answer_partial h hs hfd hr hd hel⟩

end Verif.Kernel
