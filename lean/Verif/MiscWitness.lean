import Verif.MiscProps

/-!
# C68, C69: cases in which the hypotheses hold, and what the code gets wrong
-/

namespace Verif.Misc
open Verif.Path Verif.Fs Verif.Kernel

/-- In `demo`, descriptor 3 is open for reading and writing on `/a`, which has 3 bytes: a shared mapping for reading and writing from offset 0 is
allowed (C68). -/
example : MayMap demo 0 3#32 1#32 3 0 9 ∧ OneKind 1#32 ∧ ¬ Anonymous 1#32 ∧ Stores 3#32 1#32 ∧
    mmap demo 0 0#64 4096 3#32 1#32 3 0 = .host ⟨0#64, 4096, 3#32, 1#32, some 9, 0⟩ := by
  have hm : MayMap demo 0 3#32 1#32 3 0 9 :=
    ⟨by decide, 3, 2#32, 3, demo_open.1, demo_open.2.1, .inr (by decide), fun _ => by show _ = _; decide, by decide, by decide⟩
  exact ⟨hm, by decide, by decide, by decide, mapping_granted demo_reach (by decide) (by decide) (by decide) hm⟩

/-- `/a` opened once for reading (6) and once for writing (7) besides, the directory `/` opened (8), `/dev/null` opened (9), and a socket (10). -/
def opened : State := run demo [(0, .openP pA 0#32 0#32), (0, .openP pA 1#32 0#32), (0, .openP [47] 0#32 0#32),
  (0, .openP [47, 100, 101, 118, 47, 110, 117, 108, 108] 2#32 0#32), (0, .socket false false), (0, .dup 10)]

theorem opened_reach : Reach opened := demo_reach.run _ (by decide +kernel)

/-- Each refusal of C68, in one reachable state: reading through 6 is granted, and storing privately; storing to the file is not; nothing is through 7; a
directory, a device, a pipe, a socket, a closed descriptor; offsets outside the file. -/
example : mmap opened 0 0#64 1 1#32 1#32 6 0 = .host ⟨0#64, 1, 1#32, 1#32, some 9, 0⟩ ∧
    mmap opened 0 0#64 1 3#32 2#32 6 3 = .host ⟨0#64, 1, 3#32, 2#32, some 9, 3⟩ ∧
    mmap opened 0 0#64 1 3#32 1#32 6 0 = .ret (.err .EACCES) ∧
    mmap opened 0 0#64 1 1#32 2#32 7 0 = .ret (.err .EACCES) ∧
    mmap opened 0 0#64 1 1#32 2#32 8 0 = .ret (.err .EACCES) ∧
    mmap opened 0 0#64 1 1#32 2#32 9 0 = .ret (.err .EOPNOTSUPP) ∧
    mmap opened 0 0#64 1 1#32 2#32 4 0 = .ret (.err .EACCES) ∧
    mmap opened 0 0#64 1 1#32 2#32 10 0 = .ret (.err .EACCES) ∧
    mmap opened 0 0#64 1 1#32 2#32 12 0 = .ret (.err .EBADF) ∧
    mmap opened 0 0#64 1 1#32 2#32 6 4 = .ret (.err .ENXIO) ∧
    mmap opened 0 0#64 1 1#32 2#32 6 (-1) = .ret (.err .ENXIO) ∧
    mmap opened 0 0#64 0 1#32 2#32 6 0 = .ret (.err .EINVAL) ∧
    mmap opened 0 0#64 1 1#32 3#32 6 0 = .ret (.err .EINVAL) ∧
    mmap opened 0 0#64 1 1#32 16#32 6 0 = .ret (.err .EINVAL) ∧
    mmap opened 0 0#64 1 1#32 34#32 77777 5 = .host ⟨0#64, 1, 1#32, 34#32, none, 0⟩ := by decide +kernel

/-- The answers of C69 in the same state. -/
example : fsync opened 0 3 true = (.ok 0, some 9) ∧ fsync opened 0 7 true = (.ok 0, some 9) ∧ fsync opened 0 3 false = (.err .EIO, some 9) ∧
    fsync opened 0 9 true = (.err .EROFS, none) ∧ fsync opened 0 4 true = (.err .EINVAL, none) ∧ fsync opened 0 12 true = (.err .EBADF, none) ∧
    syncRange opened 0 6 0 3 7#32 (fun _ => none) = (.ok 0, some ⟨9, 0, 3, 7#32⟩) ∧
    syncRange opened 0 6 0 3 8#32 (fun _ => none) = (.err .EINVAL, none) ∧
    syncRange opened 0 6 (-1) 3 1#32 (fun _ => some .EINVAL) = (.err .EINVAL, some ⟨9, -1, 3, 1#32⟩) ∧
    syncRange opened 0 8 0 3 7#32 (fun _ => none) = (.err .ESPIPE, none) ∧ syncRange opened 0 10 0 3 7#32 (fun _ => none) = (.err .EBADF, none) ∧
    statfs opened 0 pA = (.ok 0, some fsData) ∧ (statfs opened 0 [47, 98]).1 = .err .ENOENT ∧
    fstatfs opened 0 8 = (.ok 0, some fsData) ∧ fstatfs opened 0 10 = (.err .EBADF, none) ∧
    (ioctl opened 0 10 21537#32 (some 1)).2 = .ok 0 ∧ slot (ioctl opened 0 10 21537#32 (some 1)).1 0 10 = some (.sock 2048#32) ∧
    (ioctl opened 0 3 21537#32 (some 1)).2 = .err .ENOTTY ∧ (ioctl opened 0 10 21537#32 none).2 = .err .EFAULT ∧
    (ioctl opened 0 10 1#32 (some 1)).2 = .err .EINVAL ∧ gethostname 64 = (.ok 0, [76, 105, 110, 100, 0]) := by decide +kernel

/-- C68, violated: a descriptor number outside the table ends the whole process. -/
theorem mapping_aborts_violated : Reach demo ∧ mmap demo 0 0#64 4096 1#32 2#32 (-1) 0 = .ret .panic ∧
    mmap demo 0 0#64 4096 1#32 2#32 1024 0 = .ret .panic := ⟨demo_reach, by decide +kernel, by decide +kernel⟩

/-- C68, violated: the program cannot tell where its mapping is.  Two different page addresses give the same answer, and an
address as the host gives them to 64-bit programs gives a negative one. -/
theorem mapping_address_violated : ∃ (q : MapReq) (a b : BitVec 64), a ≠ b ∧ a.toNat % 4096 = 0 ∧ b.toNat % 4096 = 0 ∧ a ≠ mapFailed ∧ b ≠ mapFailed ∧
    mmap demo 0 0#64 4096 3#32 1#32 3 0 = .host q ∧
    (MapOut.host q).value (fun _ => a) = (MapOut.host q).value (fun _ => b) ∧ (MapOut.host q).value (fun _ => a) = some (-268435456) :=
  ⟨⟨0#64, 4096, 3#32, 1#32, some 9, 0⟩, 0x7f00f0000000#64, 0x7f01f0000000#64, by decide +kernel⟩

/-- C68, violated: when the host refuses a mapping, whatever its reason, the program is told `EPERM`. -/
theorem mapping_reason_violated (q : MapReq) : (MapOut.host q).value (fun _ => mapFailed) = (Ret.err .EPERM).toInt? := by
  simp only [MapOut.value]; decide +kernel

/-- C68, violated: `munmap` that succeeds does not answer 0 but the low bits of the address. -/
theorem unmap_answer_violated : (munmap demo 0 0x10000#64 4096).value (fun q => q.addr) = some 65536 := by decide +kernel

/-- C69, violated: data written through another descriptor cannot be synchronised through one opened for reading only, nor can a directory be
synchronised. -/
theorem fsync_readonly_violated : Reach opened ∧ fsync opened 0 6 true = (.err .EBADF, none) ∧ fsync opened 0 8 true = (.err .EBADF, none) :=
  ⟨opened_reach, by decide +kernel⟩

/-- C69, violated: `fsync`, `ioctl` and `fstatfs` on a descriptor number outside the table end the whole process. -/
theorem control_aborts_violated : (fsync demo 0 1024 true).1 = .panic ∧ (ioctl demo 0 (-1) 21537#32 (some 1)).2 = .panic ∧
    (fstatfs demo 0 (-1)).1 = .panic ∧ (syncRange demo 0 (-1) 0 0 0#32 (fun _ => none)).1 = .panic := by decide +kernel

/-- C69, violated: switching a socket to non-blocking through one descriptor does not switch its copy. -/
theorem ioctl_copies_violated : Reach opened ∧ slot opened 0 10 = slot opened 0 11 ∧
    slot (ioctl opened 0 10 21537#32 (some 1)).1 0 10 = some (.sock 2048#32) ∧
    slot (ioctl opened 0 10 21537#32 (some 1)).1 0 11 = some (.sock 0#32) := ⟨opened_reach, by decide +kernel⟩

/-- C69, violated: with room for four bytes the name is stored without its end, and success is reported. -/
theorem hostname_cut_violated : gethostname 4 = (.ok 0, [76, 105, 110, 100]) ∧ gethostname 0 = (.ok 0, []) := by decide +kernel

/-- C69, violated: `statfs` says that more blocks are free than the file system has. -/
theorem free_exceeds_total_violated : (statfs demo 0 pA).2.map (fun x => (x.blocks, x.bfree)) = some (0, 1073741824) := by decide +kernel

/-- A path with one name of 300 bytes. -/
def longName : Str := 47 :: List.replicate 300 97

/-- C69, violated: `statfs` says that names have at most 254 bytes, but a file with a name of 300 bytes can be made and is found. -/
theorem longest_name_violated : (statfs demo 0 pA).2.map FsData.namelen = some 254 ∧ Reach (run demo [(0, .mkdir longName 0o777#32)]) ∧
    (step (run demo [(0, .mkdir longName 0o777#32)]) 0 (.stat longName)).2.ret = .ok 0 :=
  ⟨by decide +kernel, demo_reach.run _ (by decide +kernel), by decide +kernel⟩

end Verif.Misc
