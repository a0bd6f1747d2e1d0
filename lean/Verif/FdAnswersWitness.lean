import Verif.FdAnswers

/-!
# C76: a state with everything a descriptor can be open on, and the answers that have no reason
-/

set_option linter.unusedSimpArgs false

namespace Verif.Kernel
open Verif.Fs Verif.Path

/-- `demo` with an instance of epoll at 6, a socket at 7, the root directory at 8, an unknown device at 9, `/dev/zero` at 10 and the file
again, for reading only, at 11. -/
def zooOps : List (Nat × Op) :=
  [(0, .epollCreate 1), (0, .socket false false), (0, .openP [47] 0#32 0#32), (0, .mknod [47, 98] 0o20666#32 0x0707#64),
   (0, .openP [47, 98] 2#32 0#32), (0, .openP [47, 100, 101, 118, 47, 122, 101, 114, 111] 2#32 0#32), (0, .openP pA 0#32 0#32)]

def zoo : State := run demo zooOps

theorem zoo_reach : Reach zoo := demo_reach.run zooOps (by decide +kernel)

/-- What a descriptor is open on, computed. -/
def thingAt (s : State) (c fd : Nat) : Option (Thing × BitVec 32) :=
  match s.cages c with
  | none => none
  | some cg => match cg.fds fd with
    | none => some (.closed, 0)
    | some (.file i pos f) => match s.fs.inodes i with
      | none => none
      | some nd => match nd.kind with
        | .file => some (.regular pos nd.size, f)
        | .dir => some (.directory pos nd.ents.length, f)
        | .chr dev => some (.device dev, f)
        | .sock => none
    | some (.pipe _ f) => some (.pipe, f)
    | some (.stream n f) => some (.stream n, f)
    | some (.epoll f) => some (.epoll, f)
    | some (.sock f) => some (.socket, f)

theorem thingAt_refers {s : State} {c fd : Nat} {t : Thing} {f : BitVec 32} (h : thingAt s c fd = some (t, f)) : Refers s c fd t f := by
  unfold thingAt at h
  cases hc : s.cages c with
  | none => simp [hc] at h
  | some cg =>
    simp only [hc] at h
    cases hd : cg.fds fd with
    | none => simp only [hd, Option.some.injEq, Prod.mk.injEq] at h; obtain ⟨rfl, rfl⟩ := h; exact .closed hc hd
    | some d =>
      cases d with
      | file i pos f' =>
        simp only [hd] at h
        cases hi : s.fs.inodes i with
        | none => simp [hi] at h
        | some nd =>
          simp only [hi] at h
          cases hk : nd.kind <;> simp only [hk, reduceCtorEq, Option.some.injEq, Prod.mk.injEq] at h <;> obtain ⟨rfl, rfl⟩ := h
          · exact .regular hc hd hi hk
          · exact .directory hc hd hi hk
          · exact .device hc hd hi hk
      | pipe id f' => simp only [hd, Option.some.injEq, Prod.mk.injEq] at h; obtain ⟨rfl, rfl⟩ := h; exact .pipe hc hd
      | stream id f' => simp only [hd, Option.some.injEq, Prod.mk.injEq] at h; obtain ⟨rfl, rfl⟩ := h; exact .stream hc hd
      | epoll f' => simp only [hd, Option.some.injEq, Prod.mk.injEq] at h; obtain ⟨rfl, rfl⟩ := h; exact .epoll hc hd
      | sock f' => simp only [hd, Option.some.injEq, Prod.mk.injEq] at h; obtain ⟨rfl, rfl⟩ := h; exact .socket hc hd

theorem zoo_things : (List.range 13).map (thingAt zoo 0) =
    [some (.stream 0, 0), some (.stream 1, 1), some (.stream 2, 1), some (.regular 3 3, 2), some (.pipe, 0o2000000), some (.pipe, 1),
     some (.epoll, 0), some (.socket, 0), some (.directory 0 6, 0), some (.device (7, 7), 2), some (.device (1, 5), 2),
     some (.regular 0 3, 0), some (.closed, 0)] := by decide +kernel

theorem zoo_at {fd : Nat} {t : Thing} {f : BitVec 32} (h : thingAt zoo 0 fd = some (t, f)) : Refers zoo 0 fd t f := thingAt_refers h

/-- `fd_answer_partial` applies to the write to descriptor 11, which is open for reading only: EBADF. -/
example : Reason (.write 11 [1]) (.regular 0 3) 0#32 .EBADF ∧ (step zoo 0 (.write 11 [1])).1 = zoo := by
  have h := fd_answer_partial zoo_reach (c := 0) (op := .write 11 [1]) (fd := 11) rfl (by decide) (zoo_at (by decide +kernel : _ = some (.regular 0 3, 0#32)))
    (by intro h; cases h) (by simp [Elsewhere, Thing.isDirectory])
  exact h.1 .EBADF (by decide +kernel)

/-- And to a read of it, which has no reason to fail, and does not. -/
example : ∀ e, (step zoo 0 (.read 11 2)).2.ret ≠ .err e := by
  have h := fd_answer_partial zoo_reach (c := 0) (op := .read 11 2) (fd := 11) rfl (by decide) (zoo_at (by decide +kernel : _ = some (.regular 0 3, 0#32)))
    (by intro h; cases h) (by simp [Elsewhere, Thing.isDirectory])
  intro e he
  have := (h.1 e he).1
  cases this <;> simp_all [reads, writes, seeks, Thing.isDirectory, Thing.seekable]

/-- The errors one by one: not open, not open for this, a directory, no position, before the beginning, not a directory, no such command. -/
example : ((step zoo 0 (.fstat 12)).2.ret, (step zoo 0 (.read 5 1)).2.ret, (step zoo 0 (.read 8 1)).2.ret) =
      (.err .EBADF, .err .EBADF, .err .EISDIR) ∧
    ((step zoo 0 (.lseek 4 0 0)).2.ret, (step zoo 0 (.lseek 3 (-4) 1)).2.ret, (step zoo 0 (.fchdir 4)).2.ret, (step zoo 0 (.fcntl 3 7 0#32)).2.ret) =
      (.err .ESPIPE, .err .EINVAL, .err .ENOTDIR, .err .EINVAL) ∧
    ((step zoo 0 (.ftruncate 11 0)).2.ret, (step zoo 0 (.ftruncate 3 (-1))).2.ret, (step zoo 0 (.ftruncate 6 0)).2.ret) =
      (.err .EBADF, .err .EINVAL, .err .EINVAL) := by decide +kernel

/-- C76, violated: reading standard input, which is open for reading, is answered with EOPNOTSUPP; and `writev` to it, which is not open for
writing, succeeds. -/
theorem stream_answer_violated : Refers zoo 0 0 (.stream 0) 0#32 ∧
    ((step zoo 0 (.read 0 1)).2.ret = .err .EOPNOTSUPP ∧ ∀ e, ¬ Reason (.read 0 1) (.stream 0) 0#32 e) ∧
    (Reason (.writev 0 [[1]]) (.stream 0) 0#32 .EBADF ∧ (step zoo 0 (.writev 0 [[1]])).2.ret = .ok 1) := by
  refine ⟨zoo_at (by decide +kernel), ⟨by decide +kernel, ?_⟩, .noWrite rfl (by simp) (by simp) (by decide), by decide +kernel⟩
  noreason

/-- C76, violated: the state of a socket cannot be asked for with `fstat` (EOPNOTSUPP). -/
theorem fstat_socket_violated : Refers zoo 0 7 .socket 0#32 ∧ (step zoo 0 (.fstat 7)).2.ret = .err .EOPNOTSUPP ∧
    ∀ e, ¬ Reason (.fstat 7) .socket 0#32 e := by
  refine ⟨zoo_at (by decide +kernel), by decide +kernel, ?_⟩
  noreason

/-- C76, violated: `fchmod` of a pipe, and of a file with the sticky bit, is answered with EINVAL. -/
theorem fchmod_answer_violated : Refers zoo 0 4 .pipe 0o2000000#32 ∧ Refers zoo 0 3 (.regular 3 3) 2#32 ∧
    ((step zoo 0 (.fchmod 4 0o600#32)).2.ret = .err .EINVAL ∧ ∀ e, ¬ Reason (.fchmod 4 0o600#32) .pipe 0o2000000#32 e) ∧
    ((step zoo 0 (.fchmod 3 0o1644#32)).2.ret = .err .EINVAL ∧ ∀ e, ¬ Reason (.fchmod 3 0o1644#32) (.regular 3 3) 2#32 e) := by
  refine ⟨zoo_at (by decide +kernel), zoo_at (by decide +kernel), ⟨by decide +kernel, ?_⟩, by decide +kernel, ?_⟩ <;> noreason

/-- C76, violated: `getdents` on a pipe is answered with ESPIPE instead of ENOTDIR, and `writev` to an instance of epoll with EOPNOTSUPP
instead of EINVAL. -/
theorem wrong_error_violated : Refers zoo 0 4 .pipe 0o2000000#32 ∧ Refers zoo 0 6 .epoll 0#32 ∧
    ((step zoo 0 (.getdents 4 100)).2.ret = .err .ESPIPE ∧ ∀ e, Reason (.getdents 4 100) .pipe 0o2000000#32 e → e = .ENOTDIR) ∧
    ((step zoo 0 (.writev 6 [[1]])).2.ret = .err .EOPNOTSUPP ∧ ∀ e, Reason (.writev 6 [[1]]) .epoll 0#32 e → e = .EINVAL) := by
  refine ⟨zoo_at (by decide +kernel), zoo_at (by decide +kernel), ⟨by decide +kernel, ?_⟩, by decide +kernel, ?_⟩ <;>
    (intro e he; cases he <;> simp_all [reads, writes, seeks, Thing.isDirectory])

/-- C76, violated: an instance of epoll cannot be duplicated (EACCES). -/
theorem dup_epoll_violated : Refers zoo 0 6 .epoll 0#32 ∧
    ((step zoo 0 (.dup 6)).2.ret = .err .EACCES ∧ ∀ e, ¬ Reason (.dup 6) .epoll 0#32 e) ∧
    ((step zoo 0 (.fcntl 6 0 20#32)).2.ret = .err .EACCES ∧ ∀ e, ¬ Reason (.fcntl 6 0 20#32) .epoll 0#32 e) := by
  refine ⟨zoo_at (by decide +kernel), ⟨by decide +kernel, ?_⟩, by decide +kernel, ?_⟩
  · noreason
  · intro e he
    cases he with
    | noRead g | noWrite g | noSeek g | isDir g => simp_all [reads, writes, seeks, Thing.isDirectory]
    | command g => simp at g
    | dupArg g => exact absurd g (by decide)
    | epollData g => simp_all [reads, writes]

/-- C76, violated: a position beyond the last entry of a directory is refused (EINVAL), and from where a device is to be positioned is not
looked at. -/
theorem seek_answer_violated : Refers zoo 0 8 (.directory 0 6) 0#32 ∧ Refers zoo 0 10 (.device (1, 5)) 2#32 ∧
    ((step zoo 0 (.lseek 8 7 0)).2.ret = .err .EINVAL ∧ ∀ e, ¬ Reason (.lseek 8 7 0) (.directory 0 6) 0#32 e) ∧
    (Reason (.lseek 10 0 77) (.device (1, 5)) 2#32 .EINVAL ∧ (step zoo 0 (.lseek 10 0 77)).2.ret = .ok 0) := by
  refine ⟨zoo_at (by decide +kernel), zoo_at (by decide +kernel), ⟨by decide +kernel, ?_⟩, .whence (by decide), by decide +kernel⟩
  intro e he
  cases he with
  | noRead g | noWrite g | noSeek _ g | isDir g => simp_all [reads, writes, seeks, Thing.seekable]
  | seekDir g => have := g 7 (by decide); omega

/-- C76, violated: a negative argument of `F_SETFL` is refused (EINVAL), and a negative offset aborts the program. -/
theorem negative_answer_violated : Refers zoo 0 3 (.regular 3 3) 2#32 ∧
    ((step zoo 0 (.fcntl 3 4 0x80000000#32)).2.ret = .err .EINVAL ∧ ∀ e, ¬ Reason (.fcntl 3 4 0x80000000#32) (.regular 3 3) 2#32 e) ∧
    (Reason (.pread 3 1 (-1)) (.regular 3 3) 2#32 .EINVAL ∧ (step zoo 0 (.pread 3 1 (-1))).2.ret = .panic) := by
  refine ⟨zoo_at (by decide +kernel), ⟨by decide +kernel, ?_⟩, .preadNeg (by decide), by decide +kernel⟩
  noreason

/-- C76, violated: a device the code does not know is opened, and then neither read nor written (EOPNOTSUPP). -/
theorem unknown_device_violated : Refers zoo 0 9 (.device (7, 7)) 2#32 ∧
    ((step zoo 0 (.read 9 1)).2.ret = .err .EOPNOTSUPP ∧ ∀ e, ¬ Reason (.read 9 1) (.device (7, 7)) 2#32 e) := by
  refine ⟨zoo_at (by decide +kernel), by decide +kernel, ?_⟩
  noreason

/-- C76, violated: `dup(0)` succeeds although descriptor 0 is closed. -/
theorem dup_closed_violated : let s := run zoo [(0, .close 0)]
    Reach s ∧ Refers s 0 0 .closed 0#32 ∧ Reason (.dup 0) .closed 0#32 .EBADF ∧ (step s 0 (.dup 0)).2.ret = .ok 0 :=
  ⟨zoo_reach.run [(0, .close 0)] (by decide +kernel), thingAt_refers (by decide +kernel), .bad, by decide +kernel⟩

end Verif.Kernel
