import Verif.Kernel

/-!
# Model of the calls on descriptors that leave the file tree alone: mapping, synchronising, control, status

`/repo/src/safeposix/syscalls/fs_calls.rs` 1128-1133, 1415-1525, 4026-4106, 4413-4571, 5059-5215, 5301-5303 and
`/repo/src/safeposix/syscalls/net_calls.rs` 4413-4440, on the state of `Kernel`.

What the host answers to the call it is asked for is an argument of the model.
-/

namespace Verif.Misc
open Verif.Path Verif.Fs Verif.Kernel

/-! ## Memory mappings -/

/-- `MAP_SHARED`, `/repo/src/safeposix/syscalls/fs_constants.rs` 102. -/
def mapShared : BitVec 32 := 1#32
/-- `MAP_PRIVATE`, `/repo/src/safeposix/syscalls/fs_constants.rs` 103. -/
def mapPrivate : BitVec 32 := 2#32
/-- `MAP_FIXED`, `/repo/src/safeposix/syscalls/fs_constants.rs` 104. -/
def mapFixed : BitVec 32 := 16#32
/-- `MAP_ANONYMOUS`, `/repo/src/safeposix/syscalls/fs_constants.rs` 105. -/
def mapAnonymous : BitVec 32 := 32#32
/-- `PROT_WRITE`, `/repo/src/safeposix/syscalls/fs_constants.rs` 111. -/
def protWrite : BitVec 32 := 2#32

/-- The call of the host's `mmap` in `libc_mmap`, `/repo/src/interface/misc.rs` 335-338.  `file` is the number of the
host file `linddata.N` whose descriptor is passed, `none` for the descriptor -1. -/
structure MapReq where
  addr : BitVec 64
  len : Nat
  prot : BitVec 32
  flags : BitVec 32
  file : Option Nat
  off : Int
  deriving DecidableEq, Repr

/-- What `mmap_syscall` decides: an answer of its own, or a call of the host. -/
inductive MapOut
  | ret (r : Ret)
  | host (q : MapReq)
  deriving DecidableEq, Repr

/-- The branch for a descriptor of a regular file, `/repo/src/safeposix/syscalls/fs_calls.rs` 4468-4494. -/
def mmapFile (s : State) (i : Nat) (size : Nat) (f : BitVec 32) (addr : BitVec 64) (len : Nat) (prot flags : BitVec 32)
    (off : Int) : MapOut :=
  if f &&& 1#32 ≠ 0 then .ret (.err .EACCES)
  else if flags &&& mapShared ≠ 0 ∧ prot &&& protWrite ≠ 0 ∧ f &&& 2#32 ≠ 2#32 then .ret (.err .EACCES)
  else if off < 0 ∨ off > size then .ret (.err .ENXIO)
  else match s.fs.fobj i with
    | none => .ret .panic
    | some _ => .host ⟨addr, len, prot, flags, some i, off⟩

/-- The branch for a mapping backed by a descriptor, `/repo/src/safeposix/syscalls/fs_calls.rs` 4449-4506. -/
def mmapFd (s : State) (cg : Cage) (addr : BitVec 64) (len : Nat) (prot flags : BitVec 32) (fd off : Int) : MapOut :=
  match getFd cg.fds fd with
  | none => .ret .panic
  | some none => .ret (.err .EBADF)
  | some (some (.file i _ f)) =>
    match s.fs.inodes i with
    | none => .ret .panic
    | some nd =>
      match nd.kind with
      | .chr _ => .ret (.err .EOPNOTSUPP)
      | .file => mmapFile s i nd.size f addr len prot flags off
      | _ => .ret (.err .EACCES)
  | some (some _) => .ret (.err .EACCES)

/-- `mmap_syscall`, `/repo/src/safeposix/syscalls/fs_calls.rs` 4413-4507. -/
def mmap (s : State) (c : Nat) (addr : BitVec 64) (len : Nat) (prot flags : BitVec 32) (fd off : Int) : MapOut :=
  match s.cages c with
  | none => .ret .panic
  | some cg =>
    if len = 0 then .ret (.err .EINVAL)
    else if flags &&& (mapPrivate ||| mapShared) = 0 then .ret (.err .EINVAL)
    else if flags &&& mapPrivate ≠ 0 ∧ flags &&& mapShared ≠ 0 then .ret (.err .EINVAL)
    else if flags &&& mapAnonymous ≠ 0 then .host ⟨addr, len, prot, flags, none, 0⟩
    else mmapFd s cg addr len prot flags fd off

/-- `munmap_syscall`, `/repo/src/safeposix/syscalls/fs_calls.rs` 4552-4571. -/
def munmap (s : State) (c : Nat) (addr : BitVec 64) (len : Nat) : MapOut :=
  match s.cages c with
  | none => .ret .panic
  | some _ =>
    if len = 0 then .ret (.err .EINVAL)
    else .host ⟨addr, len, 0#32, mapPrivate ||| mapAnonymous ||| mapFixed, none, 0⟩

/-- `MAP_FAILED`, what the host's `mmap` returns when it fails. -/
def mapFailed : BitVec 64 := BitVec.allOnes 64

/-- What `libc_mmap` makes of the address the host returns, `/repo/src/interface/misc.rs` 335-338: the low 32 bits as a
signed number. -/
def low (a : BitVec 64) : Int := (a.setWidth 32).toInt

/-- The number the program gets, given the host's answers; `none` is a panic. -/
def MapOut.value (host : MapReq → BitVec 64) : MapOut → Option Int
  | .ret r => r.toInt?
  | .host q => some (low (host q))

/-! ## Synchronising -/

/-- `fsync_syscall`, `/repo/src/safeposix/syscalls/fs_calls.rs` 5059-5105, and `fdatasync_syscall`, 5110-5156, which has the same
text.  `hostOk` is whether the host's call succeeds.  The second component is the number of the host file whose data
the host was asked to write out. -/
def fsync (s : State) (c : Nat) (fd : Int) (hostOk : Bool) : Ret × Option Nat :=
  match s.cages c with
  | none => (.panic, none)
  | some cg =>
    match getFd cg.fds fd with
    | none => (.panic, none)
    | some none => (.err .EBADF, none)
    | some (some (.file i _ f)) =>
      if isRdonly f then (.err .EBADF, none)
      else match s.fs.inodes i with
        | none => (.panic, none)
        | some nd =>
          if nd.isFile then
            match s.fs.fobj i with
            | none => (.panic, none)
            | some _ => (if hostOk then .ok 0 else .err .EIO, some i)
          else (.err .EROFS, none)
    | some (some _) => (.err .EINVAL, none)

/-- A call of the host's `sync_file_range`. -/
structure RangeReq where
  file : Nat
  off : Int
  nbytes : Int
  flags : BitVec 32
  deriving DecidableEq, Repr

/-- `sync_file_range_syscall`, `/repo/src/safeposix/syscalls/fs_calls.rs` 5161-5215, with `sync_file_range`,
`/repo/src/interface/file.rs` 130-143.  `host` is the error of the host's call, if any. -/
def syncRange (s : State) (c : Nat) (fd off nbytes : Int) (flags : BitVec 32) (host : RangeReq → Option Errno) :
    Ret × Option RangeReq :=
  match s.cages c with
  | none => (.panic, none)
  | some cg =>
    match getFd cg.fds fd with
    | none => (.panic, none)
    | some none => (.err .EBADF, none)
    | some (some (.file i _ _)) =>
      match s.fs.inodes i with
      | none => (.panic, none)
      | some nd =>
        if nd.isFile then
          match s.fs.fobj i with
          | none => (.panic, none)
          | some _ =>
            if flags &&& ~~~7#32 ≠ 0 then (.err .EINVAL, none)
            else match host ⟨i, off, nbytes, flags⟩ with
              | none => (.ok 0, some ⟨i, off, nbytes, flags⟩)
              | some e => (.err e, some ⟨i, off, nbytes, flags⟩)
        else (.err .ESPIPE, none)
    | some (some _) => (.err .EBADF, none)

/-! ## Status of the file system -/

/-- `FSData`, `/repo/src/interface/types.rs` 12-29, without the reserved words. -/
structure FsData where
  ftype : Nat
  bsize : Nat
  blocks : Nat
  bfree : Nat
  bavail : Nat
  files : Nat
  ffiles : Nat
  fsid : Nat
  namelen : Nat
  frsize : Nat
  deriving DecidableEq, Repr

/-- `_istatfs_helper`, `/repo/src/safeposix/syscalls/fs_calls.rs` 1510-1525, with `f_fsid`, the device number 20 of
`/repo/src/safeposix/filesystem.rs` 146. -/
def fsData : FsData where
  ftype := 0xBEEFC0DE
  bsize := 4096
  blocks := 0
  bfree := 1073741824
  bavail := 1073741824
  files := 1073741824
  ffiles := 540016640
  fsid := 20
  namelen := 254
  frsize := 4096

/-- `statfs_syscall`, `/repo/src/safeposix/syscalls/fs_calls.rs` 1415-1433. -/
def statfs (s : State) (c : Nat) (p : Str) : Ret × Option FsData :=
  match s.cages c with
  | none => (.panic, none)
  | some cg =>
    match s.fs.walk (cg.path p) with
    | none => (.panic, none)
    | some (none, _) => (.err .ENOENT, none)
    | some (some i, _) =>
      match s.fs.inodes i with
      | none => (.panic, none)
      | some _ => (.ok 0, some fsData)

/-- `fstatfs_syscall`, `/repo/src/safeposix/syscalls/fs_calls.rs` 1468-1506.  (On other descriptors than those of files the code
fills in `f_fsid` before it fails; not represented.) -/
def fstatfs (s : State) (c : Nat) (fd : Int) : Ret × Option FsData :=
  match s.cages c with
  | none => (.panic, none)
  | some cg =>
    match getFd cg.fds fd with
    | none => (.panic, none)
    | some none => (.err .EBADF, none)
    | some (some (.file i _ _)) =>
      match s.fs.inodes i with
      | none => (.panic, none)
      | some _ => (.ok 0, some fsData)
    | some (some _) => (.err .EBADF, none)

/-! ## Control -/

/-- `ioctl_syscall`, `/repo/src/safeposix/syscalls/fs_calls.rs` 4026-4106 (`FIONBIO` 21537, `FIOASYNC` 21586).  `arg` is what the pointer
designates, `none` for a null pointer.  The sockets of this state have no host socket yet (see `Kernel`), so the host is not asked. -/
def ioctl (s : State) (c : Nat) (fd : Int) (request : BitVec 32) (arg : Option Int) : State × Ret :=
  match s.cages c with
  | none => (s, .panic)
  | some cg =>
    match getFd cg.fds fd with
    | none => (s, .panic)
    | some none => (s, .err .EBADF)
    | some (some d) =>
      if request = 21537#32 then
        match arg, d with
        | none, _ => (s, .err .EFAULT)
        | some v, .sock f =>
          if v = 0 then (s.setFd c fd.toNat (some (.sock (f &&& ~~~oNONBLOCK))), .ok 0)
          else (s.setFd c fd.toNat (some (.sock (f ||| oNONBLOCK))), .ok 0)
        | some _, _ => (s, .err .ENOTTY)
      else if request = 21586#32 then (s, .ok 0)
      else (s, .err .EINVAL)

/-! ## Calls that are other calls -/

/-- `creat_syscall`, `/repo/src/safeposix/syscalls/fs_calls.rs` 1128-1133. -/
def creat (s : State) (c : Nat) (p : Str) (mode : BitVec 32) : State × Out :=
  step s c (.openP p (oCREAT ||| oTRUNC ||| 1#32) mode)

/-- `pipe_syscall`, `/repo/src/safeposix/syscalls/fs_calls.rs` 5301-5303. -/
def pipe (s : State) (c : Nat) : State × Out := step s c (.pipe2 0#32)

/-! ## The name of the machine -/

/-- `gethostname_syscall`, `/repo/src/safeposix/syscalls/net_calls.rs` 4413-4440: the bytes stored from the start of the buffer
(`DEFAULT_HOSTNAME` is `Lind`, `/repo/src/safeposix/syscalls/net_constants.rs` 8). -/
def gethostname (len : Int) : Ret × List UInt8 :=
  if len < 0 then (.err .EINVAL, [])
  else
    let name : List UInt8 := [76, 105, 110, 100, 0]
    (.ok 0, name.take (if len.toNat < name.length then len.toNat else name.length))

end Verif.Misc
