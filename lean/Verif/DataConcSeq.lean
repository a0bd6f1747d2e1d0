import Verif.DataConcLemmas

/-!
# The effects of a call on an open file, one after the other, are the call of the sequential model
-/

set_option linter.unusedSimpArgs false

namespace Verif.DataConc
open Verif.Fs Verif.Kernel

theorem getFd_slot {s : State} {c fd : Nat} {cg : Cage} (hc : s.cages c = some cg) (hfd : fd < maxFd) :
    getFd cg.fds (fd : Int) = some (slot s c fd) := by
  have h1 : ¬ ((fd : Int) < 0 ∨ (fd : Int) ≥ (maxFd : Nat)) := by omega
  simp only [getFd, if_neg h1, slot, hc, Option.bind_some, Int.toNat_natCast]

theorem answer_read {s : State} {c fd : Nat} {cg : Cage} {d : Option Desc} {o : Out} (n : Nat) (hc : s.cages c = some cg)
    (hg : getFd cg.fds (fd : Int) = some d) (h : look (.read n) d = .answer o) :
    Kernel.step s c (Call.op fd (.read n)) = (s, o) := by
  simp only [Kernel.step, hc, Call.op, Kernel.read, hg]
  rcases d with _ | ⟨i, pos, f⟩ | ⟨id, f⟩ | ⟨k, f⟩ | f | f <;>
    simp only [look, Call.tooSmall, lookFile, lookStream, lookEpoll, lookPipe, lookSock, Bool.false_eq_true, if_false, decide_eq_true_eq] at h ⊢ <;> (repeat' split at h) <;> first
    | (cases h; done)
    | (injection h with h; subst h; first | rfl | simp_all [State.onFs, Fs.chmodIno, Fs.truncIno, Out.r])

theorem answer_pread {s : State} {c fd : Nat} {cg : Cage} {d : Option Desc} {o : Out} (n : Nat) (off : Int) (hc : s.cages c = some cg)
    (hg : getFd cg.fds (fd : Int) = some d) (h : look (.pread n off) d = .answer o) :
    Kernel.step s c (Call.op fd (.pread n off)) = (s, o) := by
  simp only [Kernel.step, hc, Call.op, Kernel.pread, hg]
  rcases d with _ | ⟨i, pos, f⟩ | ⟨id, f⟩ | ⟨k, f⟩ | f | f <;>
    simp only [look, Call.tooSmall, lookFile, lookStream, lookEpoll, lookPipe, lookSock, Bool.false_eq_true, if_false, decide_eq_true_eq] at h ⊢ <;> (repeat' split at h) <;> first
    | (cases h; done)
    | (injection h with h; subst h; first | rfl | simp_all [State.onFs, Fs.chmodIno, Fs.truncIno, Out.r])

theorem answer_write {s : State} {c fd : Nat} {cg : Cage} {d : Option Desc} {o : Out} (data : List UInt8) (hc : s.cages c = some cg)
    (hg : getFd cg.fds (fd : Int) = some d) (h : look (.write data) d = .answer o) :
    Kernel.step s c (Call.op fd (.write data)) = (s, o) := by
  simp only [Kernel.step, hc, Call.op, Kernel.write, hg]
  rcases d with _ | ⟨i, pos, f⟩ | ⟨id, f⟩ | ⟨k, f⟩ | f | f <;>
    simp only [look, Call.tooSmall, lookFile, lookStream, lookEpoll, lookPipe, lookSock, Bool.false_eq_true, if_false, decide_eq_true_eq] at h ⊢ <;> (repeat' split at h) <;> first
    | (cases h; done)
    | (injection h with h; subst h; first | rfl | simp_all [State.onFs, Fs.chmodIno, Fs.truncIno, Out.r])

theorem answer_pwrite {s : State} {c fd : Nat} {cg : Cage} {d : Option Desc} {o : Out} (data : List UInt8) (off : Int) (hc : s.cages c = some cg)
    (hg : getFd cg.fds (fd : Int) = some d) (h : look (.pwrite data off) d = .answer o) :
    Kernel.step s c (Call.op fd (.pwrite data off)) = (s, o) := by
  simp only [Kernel.step, hc, Call.op, Kernel.pwrite, hg]
  rcases d with _ | ⟨i, pos, f⟩ | ⟨id, f⟩ | ⟨k, f⟩ | f | f <;>
    simp only [look, Call.tooSmall, lookFile, lookStream, lookEpoll, lookPipe, lookSock, Bool.false_eq_true, if_false, decide_eq_true_eq] at h ⊢ <;> (repeat' split at h) <;> first
    | (cases h; done)
    | (injection h with h; subst h; first | rfl | simp_all [State.onFs, Fs.chmodIno, Fs.truncIno, Out.r])

theorem answer_writev {s : State} {c fd : Nat} {cg : Cage} {d : Option Desc} {o : Out} (iovs : List (List UInt8)) (hc : s.cages c = some cg)
    (hg : getFd cg.fds (fd : Int) = some d) (h : look (.writev iovs) d = .answer o) :
    Kernel.step s c (Call.op fd (.writev iovs)) = (s, o) := by
  simp only [Kernel.step, hc, Call.op, Kernel.writev, hg]
  rcases d with _ | ⟨i, pos, f⟩ | ⟨id, f⟩ | ⟨k, f⟩ | f | f <;>
    simp only [look, Call.tooSmall, lookFile, lookStream, lookEpoll, lookPipe, lookSock, Bool.false_eq_true, if_false, decide_eq_true_eq] at h ⊢ <;> (repeat' split at h) <;> first
    | (cases h; done)
    | (injection h with h; subst h; first | rfl | simp_all [State.onFs, Fs.chmodIno, Fs.truncIno, Out.r])

theorem answer_lseek {s : State} {c fd : Nat} {cg : Cage} {d : Option Desc} {o : Out} (off whence : Int) (hc : s.cages c = some cg)
    (hg : getFd cg.fds (fd : Int) = some d) (h : look (.lseek off whence) d = .answer o) :
    Kernel.step s c (Call.op fd (.lseek off whence)) = (s, o) := by
  simp only [Kernel.step, hc, Call.op, Kernel.lseek, hg]
  rcases d with _ | ⟨i, pos, f⟩ | ⟨id, f⟩ | ⟨k, f⟩ | f | f <;>
    simp only [look, Call.tooSmall, lookFile, lookStream, lookEpoll, lookPipe, lookSock, Bool.false_eq_true, if_false, decide_eq_true_eq] at h ⊢ <;> (repeat' split at h) <;> first
    | (cases h; done)
    | (injection h with h; subst h; first | rfl | simp_all [State.onFs, Fs.chmodIno, Fs.truncIno, Out.r])

theorem answer_ftruncate {s : State} {c fd : Nat} {cg : Cage} {d : Option Desc} {o : Out} (len : Int) (hc : s.cages c = some cg)
    (hg : getFd cg.fds (fd : Int) = some d) (h : look (.ftruncate len) d = .answer o) :
    Kernel.step s c (Call.op fd (.ftruncate len)) = (s, o) := by
  simp only [Kernel.step, hc, Call.op, Kernel.ftruncate, hg]
  rcases d with _ | ⟨i, pos, f⟩ | ⟨id, f⟩ | ⟨k, f⟩ | f | f <;>
    simp only [look, Call.tooSmall, lookFile, lookStream, lookEpoll, lookPipe, lookSock, Bool.false_eq_true, if_false, decide_eq_true_eq] at h ⊢ <;> (repeat' split at h) <;> first
    | (cases h; done)
    | (injection h with h; subst h; first | rfl | simp_all [State.onFs, Fs.chmodIno, Fs.truncIno, Out.r])

theorem answer_fstat {s : State} {c fd : Nat} {cg : Cage} {d : Option Desc} {o : Out}  (hc : s.cages c = some cg)
    (hg : getFd cg.fds (fd : Int) = some d) (h : look (.fstat) d = .answer o) :
    Kernel.step s c (Call.op fd (.fstat)) = (s, o) := by
  simp only [Kernel.step, hc, Call.op, Kernel.fstat, hg]
  rcases d with _ | ⟨i, pos, f⟩ | ⟨id, f⟩ | ⟨k, f⟩ | f | f <;>
    simp only [look, Call.tooSmall, lookFile, lookStream, lookEpoll, lookPipe, lookSock, Bool.false_eq_true, if_false, decide_eq_true_eq] at h ⊢ <;> (repeat' split at h) <;> first
    | (cases h; done)
    | (injection h with h; subst h; first | rfl | simp_all [State.onFs, Fs.chmodIno, Fs.truncIno, Out.r])

theorem answer_fchmod {s : State} {c fd : Nat} {cg : Cage} {d : Option Desc} {o : Out} (mode : BitVec 32) (hc : s.cages c = some cg)
    (hg : getFd cg.fds (fd : Int) = some d) (h : look (.fchmod mode) d = .answer o) :
    Kernel.step s c (Call.op fd (.fchmod mode)) = (s, o) := by
  simp only [Kernel.step, hc, Call.op, Kernel.fchmod, hg]
  rcases d with _ | ⟨i, pos, f⟩ | ⟨id, f⟩ | ⟨k, f⟩ | f | f <;>
    simp only [look, Call.tooSmall, lookFile, lookStream, lookEpoll, lookPipe, lookSock, Bool.false_eq_true, if_false, decide_eq_true_eq] at h ⊢ <;> (repeat' split at h) <;> first
    | (cases h; done)
    | (injection h with h; subst h; first | rfl | simp_all [State.onFs, Fs.chmodIno, Fs.truncIno, Out.r])

theorem answer_getdents {s : State} {c fd : Nat} {cg : Cage} {d : Option Desc} {o : Out} (n : Nat) (hc : s.cages c = some cg)
    (hg : getFd cg.fds (fd : Int) = some d) (h : look (.getdents n) d = .answer o) :
    Kernel.step s c (Call.op fd (.getdents n)) = (s, o) := by
  simp only [Kernel.step, hc, Call.op, Kernel.getdents, hg]
  rcases d with _ | ⟨i, pos, f⟩ | ⟨id, f⟩ | ⟨k, f⟩ | f | f <;>
    simp only [look, Call.tooSmall, lookFile, lookStream, lookEpoll, lookPipe, lookSock, Bool.false_eq_true, if_false, decide_eq_true_eq] at h ⊢ <;> (repeat' split at h) <;> first
    | (cases h; done)
    | (injection h with h; subst h; first | rfl | simp_all [State.onFs, Fs.chmodIno, Fs.truncIno, Out.r])

/-- An answer that is known before the inode is locked is that of the sequential model, which changes nothing then. -/
theorem step_answer {s : State} {c fd : Nat} {call : Call} {o : Out} (hc : (s.cages c).isSome) (hfd : fd < maxFd)
    (h : look call (slot s c fd) = .answer o) : Kernel.step s c (call.op fd) = (s, o) := by
  obtain ⟨cg, hc⟩ := Option.isSome_iff_exists.1 hc
  have hg := getFd_slot hc hfd
  cases call with
  | read n => exact answer_read n hc hg h
  | pread n off => exact answer_pread n off hc hg h
  | write data => exact answer_write data hc hg h
  | pwrite data off => exact answer_pwrite data off hc hg h
  | writev iovs => exact answer_writev iovs hc hg h
  | lseek off whence => exact answer_lseek off whence hc hg h
  | ftruncate len => exact answer_ftruncate len hc hg h
  | fstat => exact answer_fstat hc hg h
  | fchmod mode => exact answer_fchmod mode hc hg h
  | getdents n => exact answer_getdents n hc hg h

/-- Where `look` sends a call on. -/
theorem look_inode {call : Call} {d : Option Desc} {i pos : Nat} {f : BitVec 32} (h : look call d = .inode i pos f) :
    d = some (.file i pos f) ∧ call.tooSmall = false ∧ lookFile i pos f call = .inode i pos f := by
  unfold look at h
  split at h
  · cases h
  · rename_i hs
    simp only [Bool.not_eq_true] at hs
    rcases d with _ | ⟨i', pos', f'⟩ | ⟨id, f'⟩ | ⟨k, f'⟩ | f' | f' <;> simp only at h
    · cases h
    · have e : i' = i ∧ pos' = pos ∧ f' = f := by
        cases call <;> simp only [lookFile] at h <;> (repeat' split at h) <;> first | (cases h; done) | (cases h; exact ⟨rfl, rfl, rfl⟩)
      obtain ⟨rfl, rfl, rfl⟩ := e
      exact ⟨rfl, hs, h⟩
    · cases call <;> cases h
    · cases call <;> simp only [lookStream] at h <;> (repeat' split at h) <;> cases h
    · cases call <;> cases h
    · cases call <;> cases h

/-- The whole of a call after `look`: it changes at most its slot and its file, as its effects do. -/
def Whole (s : State) (c fd : Nat) (call : Call) (i pos : Nat) (f : BitVec 32) : Prop :=
  ∃ d F, SameButLog (Kernel.step s c (call.op fd)).1 ((setFile s i F).setFd c fd d) ∧
    Completes call i pos f .start (slot s c fd) (file s i) d F (Kernel.step s c (call.op fd)).2

/-- A call that changes nothing and has one effect. -/
theorem whole_same {s : State} {c fd : Nat} {call : Call} {i pos : Nat} {f : BitVec 32} {o : Out} {l : Bool}
    (hs : Kernel.step s c (call.op fd) = (s, o)) (he : begin call i pos f (slot s c fd) (file s i) = (slot s c fd, file s i, .over o l)) :
    Whole s c fd call i pos f := by
  refine ⟨slot s c fd, file s i, ?_, ?_⟩
  · rw [hs, put_self]; exact .refl _
  · rw [hs]; exact .last (by simp) he

/-- A call that only moves the position and has one effect. -/
theorem whole_move {s : State} {c fd : Nat} {call : Call} {i pos : Nat} {f : BitVec 32} {o : Out} {l : Bool} {d : Option Desc}
    (hs : Kernel.step s c (call.op fd) = (s.setFd c fd d, o)) (he : begin call i pos f (slot s c fd) (file s i) = (d, file s i, .over o l)) :
    Whole s c fd call i pos f := by
  refine ⟨d, file s i, ?_, ?_⟩
  · rw [hs, setFile_self]; exact .refl _
  · rw [hs]; exact .last (by simp) he

theorem readAt_file (s : State) (i off n : Nat) : (file s i).readAt off n = s.fs.readAt i off n := rfl

theorem ino_file (s : State) (i : Nat) : (file s i).ino = s.fs.inodes i := rfl

theorem fobj_file (s : State) (i : Nat) : (file s i).fobj = s.fs.fobj i := rfl

theorem whole_read {s : State} {c fd n : Nat} {cg : Cage} {i pos : Nat} {f : BitVec 32} (hc : s.cages c = some cg)
    (hg : getFd cg.fds (fd : Int) = some (some (.file i pos f))) (hl : lookFile i pos f (.read n) = .inode i pos f) :
    Whole s c fd (.read n) i pos f := by
  have hw : isWronly f = false := by
    cases h : isWronly f with
    | false => rfl
    | true => simp [lookFile, h] at hl
  have hs : Kernel.step s c (Call.op fd (.read n)) = Kernel.read s c cg fd n := by simp only [Kernel.step, hc, Call.op]
  simp only [Kernel.read, hg, hw, Bool.false_eq_true, if_false, Int.toNat_natCast] at hs
  cases hi : s.fs.inodes i with
  | none =>
    rw [hi] at hs
    exact whole_same (l := false) hs (by simp only [begin, ino_file, hi])
  | some nd =>
    simp only [hi] at hs
    cases hk : nd.kind with
    | file =>
      simp only [hk] at hs
      cases hr : s.fs.readAt i pos n with
      | none =>
        rw [hr] at hs
        exact whole_same (l := false) hs (by simp only [begin, ino_file, hi, hk, readAt_file, hr])
      | some bs =>
        rw [hr] at hs
        refine ⟨some (.file i (pos + bs.length) f), file s i, ?_, ?_⟩
        · rw [hs, setFile_self]; exact .refl _
        · rw [hs]
          refine .more (b1 := .got bs) (d1 := slot s c fd) (F1 := file s i) (by simp) ?_ (.last (l := false) (by simp) rfl)
          simp only [effect, begin, ino_file, hi, hk, readAt_file, hr]
    | chr dev => rw [hk] at hs; exact whole_same (l := false) hs (by simp only [begin, ino_file, hi, hk])
    | sock => rw [hk] at hs; exact whole_same (l := false) hs (by simp only [begin, ino_file, hi, hk])
    | dir => rw [hk] at hs; exact whole_same (l := false) hs (by simp only [begin, ino_file, hi, hk])

theorem whole_pread {s : State} {c fd n : Nat} {off : Int} {cg : Cage} {i pos : Nat} {f : BitVec 32} (hc : s.cages c = some cg)
    (hg : getFd cg.fds (fd : Int) = some (some (.file i pos f))) (hl : lookFile i pos f (.pread n off) = .inode i pos f) :
    Whole s c fd (.pread n off) i pos f := by
  have hw : isWronly f = false := by
    cases h : isWronly f with
    | false => rfl
    | true => simp [lookFile, h] at hl
  have hs : Kernel.step s c (Call.op fd (.pread n off)) = Kernel.pread s cg fd n off := by simp only [Kernel.step, hc, Call.op]
  simp only [Kernel.pread, hg, hw, Bool.false_eq_true, if_false] at hs
  cases hi : s.fs.inodes i with
  | none =>
    rw [hi] at hs
    exact whole_same (l := false) hs (by simp only [begin, ino_file, hi])
  | some nd =>
    simp only [hi] at hs
    cases hk : nd.kind with
    | file =>
      simp only [hk] at hs
      by_cases ho : off < 0
      · rw [if_pos ho] at hs
        exact whole_same (l := false) hs (by simp only [begin, ino_file, hi, hk, if_pos ho])
      · rw [if_neg ho] at hs
        cases hr : s.fs.readAt i off.toNat n with
        | none =>
          rw [hr] at hs
          exact whole_same (l := false) hs (by simp only [begin, ino_file, hi, hk, if_neg ho, readAt_file, hr])
        | some bs =>
          rw [hr] at hs
          exact whole_same (l := false) hs (by simp only [begin, ino_file, hi, hk, if_neg ho, readAt_file, hr])
    | chr dev => rw [hk] at hs; exact whole_same (l := false) hs (by simp only [begin, ino_file, hi, hk])
    | sock => rw [hk] at hs; exact whole_same (l := false) hs (by simp only [begin, ino_file, hi, hk])
    | dir => rw [hk] at hs; exact whole_same (l := false) hs (by simp only [begin, ino_file, hi, hk])

theorem whole_fstat {s : State} {c fd : Nat} {cg : Cage} {i pos : Nat} {f : BitVec 32} (hc : s.cages c = some cg)
    (hg : getFd cg.fds (fd : Int) = some (some (.file i pos f))) : Whole s c fd .fstat i pos f := by
  have hs : Kernel.step s c (Call.op fd .fstat) = (s, Kernel.fstat s cg fd) := by simp only [Kernel.step, hc, Call.op]
  simp only [Kernel.fstat, hg] at hs
  cases hi : s.fs.inodes i with
  | none =>
    rw [hi] at hs
    exact whole_same (l := false) hs (by simp only [begin, ino_file, hi])
  | some nd =>
    simp only [hi] at hs
    exact whole_same (l := false) hs (by simp only [begin, ino_file, hi])

theorem whole_getdents {s : State} {c fd n : Nat} {cg : Cage} {i pos : Nat} {f : BitVec 32} (hc : s.cages c = some cg)
    (hg : getFd cg.fds (fd : Int) = some (some (.file i pos f))) (ht : (Call.getdents n).tooSmall = false) :
    Whole s c fd (.getdents n) i pos f := by
  have hn : ¬ n ≤ Getdents.clipped := by simpa [Call.tooSmall] using ht
  have hs : Kernel.step s c (Call.op fd (.getdents n)) = Kernel.getdents s c cg fd n := by simp only [Kernel.step, hc, Call.op]
  simp only [Kernel.getdents, hg, if_neg hn, Int.toNat_natCast] at hs
  cases hi : s.fs.inodes i with
  | none =>
    rw [hi] at hs
    exact whole_same (l := false) hs (by simp only [begin, ino_file, hi])
  | some nd =>
    simp only [hi] at hs
    cases hk : nd.kind with
    | dir =>
      simp only [Inode.isDir, hk, if_true] at hs
      exact whole_move (l := false) hs (by simp only [begin, ino_file, hi, hk])
    | file =>
      simp only [Inode.isDir, hk, Bool.false_eq_true, if_false] at hs
      exact whole_same (l := false) hs (by simp only [begin, ino_file, hi, hk])
    | chr dev =>
      simp only [Inode.isDir, hk, Bool.false_eq_true, if_false] at hs
      exact whole_same (l := false) hs (by simp only [begin, ino_file, hi, hk])
    | sock =>
      simp only [Inode.isDir, hk, Bool.false_eq_true, if_false] at hs
      exact whole_same (l := false) hs (by simp only [begin, ino_file, hi, hk])

theorem whole_lseek {s : State} {c fd : Nat} {off whence : Int} {cg : Cage} {i pos : Nat} {f : BitVec 32} (hc : s.cages c = some cg)
    (hg : getFd cg.fds (fd : Int) = some (some (.file i pos f))) : Whole s c fd (.lseek off whence) i pos f := by
  have hs : Kernel.step s c (Call.op fd (.lseek off whence)) = Kernel.lseek s c cg fd off whence := by
    simp only [Kernel.step, hc, Call.op]
  simp only [Kernel.lseek, hg, Int.toNat_natCast] at hs
  cases hi : s.fs.inodes i with
  | none =>
    rw [hi] at hs
    exact whole_same (l := false) hs (by simp only [begin, ino_file, hi])
  | some nd =>
    simp only [hi] at hs
    have key : ∀ e : Nat, (if whence = 0 then some off else if whence = 1 then some ((pos : Int) + off)
          else if whence = 2 then some ((e : Int) + off) else none) =
        if whence = 0 ∨ whence = 1 ∨ whence = 2 then
          some ((if whence = 0 then 0 else if whence = 1 then (pos : Int) else e) + off) else none := by
      intro e
      by_cases h0 : whence = 0
      · simp [h0]
      · by_cases h1 : whence = 1
        · simp [h1]
        · by_cases h2 : whence = 2
          · simp [h2]
          · simp [h0, h1, h2]
    simp only [key] at hs
    cases hk : nd.kind with
    | chr dev => rw [hk] at hs; exact whole_same (l := false) hs (by simp only [begin, ino_file, hi, hk])
    | sock => rw [hk] at hs; exact whole_same (l := false) hs (by simp only [begin, ino_file, hi, hk])
    | file =>
      simp only [hk] at hs
      by_cases hw : whence = 0 ∨ whence = 1 ∨ whence = 2
      · simp only [if_pos hw] at hs
        generalize he : (if whence = 0 then (0 : Int) else if whence = 1 then (pos : Int) else nd.size) + off = e at hs
        by_cases h0 : e < 0
        · rw [if_pos h0] at hs
          exact whole_same (l := false) hs (by simp only [begin, ino_file, hi, hk, if_pos hw, he, if_pos h0])
        · rw [if_neg h0] at hs
          exact whole_move (l := false) hs (by simp only [begin, ino_file, hi, hk, if_pos hw, he, if_neg h0])
      · simp only [if_neg hw] at hs
        exact whole_same (l := false) hs (by simp only [begin, ino_file, hi, hk, if_neg hw])
    | dir =>
      simp only [hk] at hs
      by_cases hw : whence = 0 ∨ whence = 1 ∨ whence = 2
      · simp only [if_pos hw] at hs
        generalize he : (if whence = 0 then (0 : Int) else if whence = 1 then (pos : Int) else nd.ents.length) + off = e at hs
        by_cases h0 : e < 0
        · rw [if_pos h0] at hs
          exact whole_same (l := false) hs (by simp only [begin, ino_file, hi, hk, if_pos hw, he, if_pos h0])
        · rw [if_neg h0] at hs
          by_cases h1 : e > nd.ents.length
          · rw [if_pos h1] at hs
            exact whole_same (l := false) hs (by simp only [begin, ino_file, hi, hk, if_pos hw, he, if_neg h0, if_pos h1])
          · rw [if_neg h1] at hs
            exact whole_move (l := false) hs (by simp only [begin, ino_file, hi, hk, if_pos hw, he, if_neg h0, if_neg h1])
      · simp only [if_neg hw] at hs
        exact whole_same (l := false) hs (by simp only [begin, ino_file, hi, hk, if_neg hw])

theorem whole_fchmod {s : State} {c fd : Nat} {mode : BitVec 32} {cg : Cage} {i pos : Nat} {f : BitVec 32} (hc : s.cages c = some cg)
    (hg : getFd cg.fds (fd : Int) = some (some (.file i pos f))) (hl : lookFile i pos f (.fchmod mode) = .inode i pos f) :
    Whole s c fd (.fchmod mode) i pos f := by
  have hm : mode &&& sIRWXA = mode := by
    by_cases h : mode &&& sIRWXA = mode
    · exact h
    · simp only [lookFile, if_neg h] at hl; cases hl
  have hs : Kernel.step s c (Call.op fd (.fchmod mode)) = Kernel.fchmod s cg fd mode := by simp only [Kernel.step, hc, Call.op]
  simp only [Kernel.fchmod, hg, Fs.chmodIno, if_pos hm] at hs
  cases hi : s.fs.inodes i with
  | none =>
    rw [hi] at hs
    exact whole_same (l := false) hs (by simp only [begin, ino_file, hi])
  | some nd =>
    simp only [hi] at hs
    let nd' : Inode := { nd with mode := (nd.mode &&& ~~~sIRWXA) ||| mode }
    refine ⟨slot s c fd, { file s i with ino := some nd' }, ?_, ?_⟩
    · rw [hs]
      have e : (setFile s i { file s i with ino := some nd' }).setFd c fd (slot s c fd) =
          setFile s i { file s i with ino := some nd' } := by
        rw [← slot_setFile s c fd i { file s i with ino := some nd' }, setFd_self]
      rw [e]
      have e1 : upd s.fs.fobj i (s.fs.fobj i) = s.fs.fobj := upd_self _ _
      have e2 : upd s.fs.disk i (s.fs.disk i) = s.fs.disk := upd_self _ _
      cases hk : nd.isSock <;> simp [SameButLog, State.onFs, setFile, file, Fs.set, Fs.logIno, hk, e1, e2, nd']
    · rw [hs]
      exact .last (by simp) (by simp only [effect, begin, ino_file, hi]; rfl)

/-! ## Writing -/

theorem writeAt_file (s : State) (i off : Nat) (data : List UInt8) :
    s.fs.writeAt i off data = ((file s i).writeAt off data).map (fun F => (setFile s i F).fs) := by
  have e : upd s.fs.inodes i (s.fs.inodes i) = s.fs.inodes := upd_self _ _
  unfold Fs.writeAt File.writeAt
  simp only [fobj_file]
  cases s.fs.fobj i with
  | none => rfl
  | some sz =>
    simp only
    split
    · rfl
    · simp [setFile, file, e]

theorem writeAt_ino {F F' : File} {off : Nat} {data : List UInt8} (h : F.writeAt off data = some F') :
    F'.ino = F.ino ∧ ∃ sz, F.fobj = some sz ∧ off ≤ sz ∧ F'.fobj = some (max sz (off + data.length)) := by
  unfold File.writeAt at h
  cases hf : F.fobj with
  | none => simp [hf] at h
  | some sz =>
    simp only [hf] at h
    split at h
    · cases h
    · cases h; exact ⟨rfl, sz, rfl, by omega, rfl⟩

/-- The file after a write. -/
def grown (F : File) (nd : Inode) (off : Nat) (data : List UInt8) : File :=
  if off + data.length > nd.size then { F with ino := some { nd with size := off + data.length } } else F

/-- The `Inode::File` arm of the writing calls on a file. -/
theorem writeIno_file (s : State) (i : Nat) (nd : Inode) (off : Nat) (data : List UInt8) (hi : s.fs.inodes i = some nd) :
    (s.fs.writeIno i nd off data = none ∧ (fillGap (file s i) nd off data = (file s i, .over (.r .panic) false) ∨
      (fillGap (file s i) nd off data = (file s i, .filled off data) ∧ (file s i).writeAt off data = none))) ∨
    ∃ F1 F2 fs, fillGap (file s i) nd off data = (F1, .filled off data) ∧ F1.writeAt off data = some F2 ∧ F2.ino = some nd ∧
      s.fs.writeIno i nd off data = some fs ∧
      { fs with log := [] } = { (setFile s i (grown F2 nd off data)).fs with log := [] } := by
  have fin : ∀ F1 F2 : File, F1.writeAt off data = some F2 → F1.ino = some nd →
      (match (setFile s i F1).fs.writeAt i off data with
        | none => none
        | some fs2 => if off + data.length > nd.size then some ((fs2.set i (some { nd with size := off + data.length })).logIno i)
            else some fs2) = some (if off + data.length > nd.size then
              (((setFile (setFile s i F1) i F2).fs.set i (some { nd with size := off + data.length })).logIno i)
            else (setFile (setFile s i F1) i F2).fs) := by
    intro F1 F2 h h1
    have e : (setFile s i F1).fs.writeAt i off data = some (setFile (setFile s i F1) i F2).fs := by
      rw [writeAt_file, file_setFile, if_pos rfl, h]; rfl
    rw [e]
    simp only
    split <;> rfl
  have fin2 : ∀ F1 F2 : File, F2.ino = some nd →
      { (if off + data.length > nd.size then
              (((setFile (setFile s i F1) i F2).fs.set i (some { nd with size := off + data.length })).logIno i)
            else (setFile (setFile s i F1) i F2).fs) with log := [] } =
        { (setFile s i (grown F2 nd off data)).fs with log := [] } := by
    intro F1 F2 h
    unfold grown
    split
    · simp [setFile, Fs.set, Fs.logIno, upd_upd]
    · simp [setFile, upd_upd]
  by_cases hg : off > nd.size
  · cases hw : (file s i).writeAt nd.size (List.replicate (off - nd.size) 0) with
    | none =>
      refine .inl ⟨?_, .inl ?_⟩
      · simp only [Fs.writeIno, if_pos hg, writeAt_file, hw, Option.map_none]
      · simp only [fillGap, if_pos hg, hw]
    | some F1 =>
      obtain ⟨e1, sz, e2, e3, e4⟩ := writeAt_ino hw
      have hl : (List.replicate (off - nd.size) (0 : UInt8)).length = off - nd.size := List.length_replicate
      rw [hl] at e4
      have : ∃ F2, F1.writeAt off data = some F2 := by
        unfold File.writeAt
        rw [e4]
        simp only
        rw [if_neg (by omega)]
        exact ⟨_, rfl⟩
      obtain ⟨F2, h2⟩ := this
      have hn1 : F1.ino = some nd := by rw [e1, ino_file, hi]
      have hn : F2.ino = some nd := by rw [(writeAt_ino h2).1, hn1]
      refine .inr ⟨F1, F2, _, ?_, h2, hn, ?_, fin2 F1 F2 hn⟩
      · simp only [fillGap, if_pos hg, hw]
      · rw [← fin F1 F2 h2 hn1]
        simp only [Fs.writeIno, if_pos hg]
        rw [writeAt_file s, hw]
        rfl
  · cases hf : s.fs.fobj i with
    | none =>
      refine .inl ⟨?_, .inl ?_⟩
      · simp [Fs.writeIno, if_neg hg, hf]
      · simp [fillGap, if_neg hg, fobj_file, hf]
    | some sz =>
      have hfill : fillGap (file s i) nd off data = (file s i, .filled off data) := by
        simp [fillGap, if_neg hg, fobj_file, hf]
      have hwi : s.fs.writeIno i nd off data = (match s.fs.writeAt i off data with
        | none => none
        | some fs2 => if off + data.length > nd.size then some ((fs2.set i (some { nd with size := off + data.length })).logIno i)
            else some fs2) := by
        simp only [Fs.writeIno, if_neg hg, hf, Option.isNone_some, Bool.false_eq_true, if_false]
        rfl
      cases hw : (file s i).writeAt off data with
      | none =>
        refine .inl ⟨?_, .inr ⟨hfill, rfl⟩⟩
        rw [hwi, writeAt_file, hw]; rfl
      | some F2 =>
        have hn : F2.ino = some nd := by rw [(writeAt_ino hw).1, ino_file, hi]
        refine .inr ⟨file s i, F2, _, hfill, hw, hn, ?_, fin2 (file s i) F2 hn⟩
        rw [← fin (file s i) F2 hw (by rw [ino_file, hi]), hwi, setFile_self]

/-- The effects of the writing calls after the gap is filled. -/
theorem complete_write {call : Call} {i pos : Nat} {f : BitVec 32} {d d' : Option Desc} {F1 F2 : File} {nd : Inode} {off : Nat}
    {data : List UInt8} (hw : F1.writeAt off data = some F2) (hn : F2.ino = some nd)
    (hd : effect call i pos f (.wrote off data) d F2 = (d', F2, .placed off data)) :
    Completes call i pos f (.filled off data) d F1 d' (grown F2 nd off data) (.r (.ok (toI32 data.length))) := by
  refine .more (b1 := .wrote off data) (d1 := d) (F1 := F2) (by simp) (by simp only [effect, hw]) ?_
  refine .more (by simp) hd ?_
  refine .last (l := decide (off + data.length > nd.size)) (by simp) ?_
  simp only [effect, hn, grown]
  split <;> simp_all

theorem whole_write {s : State} {c fd : Nat} {data : List UInt8} {cg : Cage} {i pos : Nat} {f : BitVec 32} (hc : s.cages c = some cg)
    (hg : getFd cg.fds (fd : Int) = some (some (.file i pos f))) (hl : lookFile i pos f (.write data) = .inode i pos f) :
    Whole s c fd (.write data) i pos f := by
  have hw : isRdonly f = false := by
    cases h : isRdonly f with
    | false => rfl
    | true => simp [lookFile, h] at hl
  have hs : Kernel.step s c (Call.op fd (.write data)) = Kernel.write s c cg fd data := by simp only [Kernel.step, hc, Call.op]
  simp only [Kernel.write, hg, hw, Bool.false_eq_true, if_false, Int.toNat_natCast] at hs
  cases hi : s.fs.inodes i with
  | none =>
    rw [hi] at hs
    exact whole_same (l := false) hs (by simp only [begin, ino_file, hi])
  | some nd =>
    simp only [hi] at hs
    cases hk : nd.kind with
    | file =>
      simp only [hk] at hs
      have hb : ∀ d, begin (.write data) i pos f d (file s i) = (d, fillGap (file s i) nd pos data) := by
        intro d; simp only [begin, ino_file, hi, hk]
      rcases writeIno_file s i nd pos data hi with ⟨h1, h2 | ⟨h2, h3⟩⟩ | ⟨F1, F2, fs, h2, h3, h4, h1, h5⟩
      · simp only [h1] at hs
        exact whole_same hs (by rw [hb, h2])
      · simp only [h1] at hs
        refine ⟨slot s c fd, file s i, ?_, ?_⟩
        · rw [hs, put_self]; exact .refl _
        · rw [hs]
          refine .more (by simp) ((hb _).trans (by rw [h2])) (.last (l := false) (by simp) ?_)
          simp only [effect, h3]
      · simp only [h1] at hs
        refine ⟨some (.file i (pos + data.length) f), grown F2 nd pos data, ?_, ?_⟩
        · rw [hs]
          simp only [State.setFd, hc, setFile, SameButLog, State.setCage]
          simp only [setFile] at h5
          rw [h5]
        · rw [hs]
          refine .more (by simp) ((hb _).trans (by rw [h2])) (complete_write h3 h4 rfl)
    | chr dev => rw [hk] at hs; exact whole_same (l := false) hs (by simp only [begin, ino_file, hi, hk])
    | sock => rw [hk] at hs; exact whole_same (l := false) hs (by simp only [begin, ino_file, hi, hk])
    | dir => rw [hk] at hs; exact whole_same (l := false) hs (by simp only [begin, ino_file, hi, hk])

theorem whole_writev {s : State} {c fd : Nat} {iovs : List (List UInt8)} {cg : Cage} {i pos : Nat} {f : BitVec 32}
    (hc : s.cages c = some cg)
    (hg : getFd cg.fds (fd : Int) = some (some (.file i pos f))) (hl : lookFile i pos f (.writev iovs) = .inode i pos f) :
    Whole s c fd (.writev iovs) i pos f := by
  have hw : isRdonly f = false := by
    cases h : isRdonly f with
    | false => rfl
    | true => simp [lookFile, h] at hl
  have hs : Kernel.step s c (Call.op fd (.writev iovs)) = Kernel.writev s c cg fd iovs := by simp only [Kernel.step, hc, Call.op]
  simp only [Kernel.writev, hg, hw, Bool.false_eq_true, if_false, Int.toNat_natCast] at hs
  cases hi : s.fs.inodes i with
  | none =>
    rw [hi] at hs
    exact whole_same (l := false) hs (by simp only [begin, ino_file, hi])
  | some nd =>
    simp only [hi] at hs
    cases hk : nd.kind with
    | file =>
      simp only [hk] at hs
      have hb : ∀ d, begin (.writev iovs) i pos f d (file s i) = (d, fillGap (file s i) nd pos iovs.flatten) := by
        intro d; simp only [begin, ino_file, hi, hk]
      rcases writeIno_file s i nd pos iovs.flatten hi with ⟨h1, h2 | ⟨h2, h3⟩⟩ | ⟨F1, F2, fs, h2, h3, h4, h1, h5⟩
      · simp only [h1] at hs
        exact whole_same hs (by rw [hb, h2])
      · simp only [h1] at hs
        refine ⟨slot s c fd, file s i, ?_, ?_⟩
        · rw [hs, put_self]; exact .refl _
        · rw [hs]
          refine .more (by simp) ((hb _).trans (by rw [h2])) (.last (l := false) (by simp) ?_)
          simp only [effect, h3]
      · simp only [h1] at hs
        refine ⟨some (.file i (pos + iovs.flatten.length) f), grown F2 nd pos iovs.flatten, ?_, ?_⟩
        · rw [hs]
          simp only [State.setFd, hc, setFile, SameButLog, State.setCage]
          simp only [setFile] at h5
          rw [h5]
        · rw [hs]
          refine .more (by simp) ((hb _).trans (by rw [h2])) (complete_write h3 h4 rfl)
    | chr dev => rw [hk] at hs; exact whole_same (l := false) hs (by simp only [begin, ino_file, hi, hk])
    | sock => rw [hk] at hs; exact whole_same (l := false) hs (by simp only [begin, ino_file, hi, hk])
    | dir => rw [hk] at hs; exact whole_same (l := false) hs (by simp only [begin, ino_file, hi, hk])

theorem whole_pwrite {s : State} {c fd : Nat} {data : List UInt8} {off : Int} {cg : Cage} {i pos : Nat} {f : BitVec 32}
    (hc : s.cages c = some cg)
    (hg : getFd cg.fds (fd : Int) = some (some (.file i pos f))) (hl : lookFile i pos f (.pwrite data off) = .inode i pos f) :
    Whole s c fd (.pwrite data off) i pos f := by
  have hw : isRdonly f = false := by
    cases h : isRdonly f with
    | false => rfl
    | true => simp [lookFile, h] at hl
  have hs : Kernel.step s c (Call.op fd (.pwrite data off)) = Kernel.pwrite s cg fd data off := by simp only [Kernel.step, hc, Call.op]
  simp only [Kernel.pwrite, hg, hw, Bool.false_eq_true, if_false] at hs
  cases hi : s.fs.inodes i with
  | none =>
    rw [hi] at hs
    exact whole_same (l := false) hs (by simp only [begin, ino_file, hi])
  | some nd =>
    simp only [hi] at hs
    cases hk : nd.kind with
    | file =>
      simp only [hk] at hs
      by_cases ho : off < 0
      · rw [if_pos ho] at hs
        exact whole_same (l := false) hs (by simp only [begin, ino_file, hi, hk, if_pos ho])
      · rw [if_neg ho] at hs
        have hb : ∀ d, begin (.pwrite data off) i pos f d (file s i) = (d, fillGap (file s i) nd off.toNat data) := by
          intro d; simp only [begin, ino_file, hi, hk, if_neg ho]
        rcases writeIno_file s i nd off.toNat data hi with ⟨h1, h2 | ⟨h2, h3⟩⟩ | ⟨F1, F2, fs, h2, h3, h4, h1, h5⟩
        · simp only [h1] at hs
          exact whole_same hs (by rw [hb, h2])
        · simp only [h1] at hs
          refine ⟨slot s c fd, file s i, ?_, ?_⟩
          · rw [hs, put_self]; exact .refl _
          · rw [hs]
            refine .more (by simp) ((hb _).trans (by rw [h2])) (.last (l := false) (by simp) ?_)
            simp only [effect, h3]
        · simp only [h1] at hs
          refine ⟨slot s c fd, grown F2 nd off.toNat data, ?_, ?_⟩
          · rw [hs, ← slot_setFile s c fd i (grown F2 nd off.toNat data), setFd_self]
            simp only [setFile, SameButLog]
            simp only [setFile] at h5
            rw [h5]
          · rw [hs]
            refine .more (by simp) ((hb _).trans (by rw [h2])) (complete_write h3 h4 rfl)
    | chr dev => rw [hk] at hs; exact whole_same (l := false) hs (by simp only [begin, ino_file, hi, hk])
    | sock => rw [hk] at hs; exact whole_same (l := false) hs (by simp only [begin, ino_file, hi, hk])
    | dir => rw [hk] at hs; exact whole_same (l := false) hs (by simp only [begin, ino_file, hi, hk])

theorem whole_ftruncate {s : State} {c fd : Nat} {len : Int} {cg : Cage} {i pos : Nat} {f : BitVec 32}
    (hc : s.cages c = some cg)
    (hg : getFd cg.fds (fd : Int) = some (some (.file i pos f))) (hl : lookFile i pos f (.ftruncate len) = .inode i pos f) :
    Whole s c fd (.ftruncate len) i pos f := by
  have hw : isRdonly f = false := by
    cases h : isRdonly f with
    | false => rfl
    | true => simp [lookFile, h] at hl
  have hlen : ¬ len < 0 := by
    intro h
    simp [lookFile, hw, h] at hl
  have hs : Kernel.step s c (Call.op fd (.ftruncate len)) = Kernel.ftruncate s cg fd len := by simp only [Kernel.step, hc, Call.op]
  simp only [Kernel.ftruncate, hg, hw, Bool.false_eq_true, if_false, Fs.truncIno, if_neg hlen] at hs
  cases hi : s.fs.inodes i with
  | none =>
    rw [hi] at hs
    exact whole_same (l := false) hs (by simp only [begin, ino_file, hi])
  | some nd =>
    simp only [hi] at hs
    cases hk : nd.kind with
    | chr dev => rw [hk] at hs; exact whole_same (l := false) hs (by simp only [begin, ino_file, hi, hk])
    | sock => rw [hk] at hs; exact whole_same (l := false) hs (by simp only [begin, ino_file, hi, hk])
    | dir => rw [hk] at hs; exact whole_same (l := false) hs (by simp only [begin, ino_file, hi, hk])
    | file =>
      simp only [hk] at hs
      have hself : upd s.fs.inodes i (s.fs.inodes i) = s.fs.inodes := upd_self _ _
      cases hf : s.fs.fobj i with
      | none =>
        simp only [hf, Option.isNone_none, and_self, if_true] at hs
        exact whole_same (l := false) hs (by simp only [begin, ino_file, hi, hk, fobj_file, hf])
      | some sz =>
        simp only [hf, Option.isNone_some, Bool.false_eq_true, false_and, if_false, Fs.openObj] at hs
        by_cases hgrow : nd.size < len.toNat
        · simp only [if_pos hgrow, writeAt_file] at hs
          cases hwr : (file s i).writeAt nd.size (List.replicate (len.toNat - nd.size) 0) with
          | none =>
            simp only [hwr, Option.map_none] at hs
            exact whole_same (l := false) hs (by simp only [begin, ino_file, hi, hk, fobj_file, hf, if_pos hgrow, hwr])
          | some F1 =>
            simp only [hwr, Option.map_some] at hs
            have hn : F1.ino = some nd := by rw [(writeAt_ino hwr).1, ino_file, hi]
            refine ⟨slot s c fd, { F1 with ino := some { nd with size := len.toNat } }, ?_, ?_⟩
            · rw [hs, ← slot_setFile s c fd i { F1 with ino := some { nd with size := len.toNat } }, setFd_self]
              simp [SameButLog, State.onFs, setFile, Fs.set, Fs.logIno, upd_upd, hk]
            · rw [hs]
              refine .more (b1 := .cut len.toNat) (d1 := slot s c fd) (F1 := F1) (by simp) ?_ (.last (l := true) (by simp) ?_)
              · simp only [effect, begin, ino_file, hi, hk, fobj_file, hf, if_pos hgrow, hwr]
              · simp only [effect, hn]; rfl
        · simp only [if_neg hgrow] at hs
          by_cases hsz : len.toNat > sz
          · simp only [if_pos hsz] at hs
            exact whole_same (l := false) hs (by simp only [begin, ino_file, hi, hk, fobj_file, hf, if_neg hgrow, if_pos hsz])
          · simp only [if_neg hsz] at hs
            refine ⟨slot s c fd, ⟨some { nd with size := len.toNat }, some len.toNat, some (((file s i).disk.getD []).take len.toNat)⟩,
              ?_, ?_⟩
            · rw [hs, ← slot_setFile s c fd i, setFd_self]
              simp [SameButLog, State.onFs, setFile, Fs.set, Fs.logIno, file, hk]
            · rw [hs]
              refine .more (b1 := .cut len.toNat) (d1 := slot s c fd)
                (F1 := { file s i with fobj := some len.toNat, disk := some (((file s i).disk.getD []).take len.toNat) }) (by simp)
                (by simp only [effect, begin, ino_file, hi, hk, fobj_file, hf, if_neg hgrow, if_neg hsz]) (.last (l := true) (by simp) ?_)
              simp only [effect, ino_file, hi]; rfl

/-- The whole of a call after `look`. -/
theorem step_inode {s : State} {c fd : Nat} {call : Call} {i pos : Nat} {f : BitVec 32} (hc : (s.cages c).isSome) (hfd : fd < maxFd)
    (h : look call (slot s c fd) = .inode i pos f) : Whole s c fd call i pos f := by
  obtain ⟨cg, hc⟩ := Option.isSome_iff_exists.1 hc
  have hg := getFd_slot hc hfd
  obtain ⟨h1, h2, h3⟩ := look_inode h
  rw [h1] at hg
  cases call with
  | read n => exact whole_read hc hg h3
  | pread n off => exact whole_pread hc hg h3
  | write data => exact whole_write hc hg h3
  | pwrite data off => exact whole_pwrite hc hg h3
  | writev iovs => exact whole_writev hc hg h3
  | lseek off whence => exact whole_lseek hc hg
  | ftruncate len => exact whole_ftruncate hc hg h3
  | fstat => exact whole_fstat hc hg
  | fchmod mode => exact whole_fchmod hc hg h3
  | getdents n => exact whole_getdents hc hg h2

end Verif.DataConc
