import Verif.Kernel

/-!
# Model of what stat and fstat store in the caller's buffer

`/repo/src/safeposix/syscalls/fs_calls.rs` 1169-1274, 1311-1381; `/repo/src/interface/types.rs` 33-50.  `Kernel.step` gives the
fields of the answer that depend on the file; here is the whole buffer, as the caller handed it over and as it is afterwards.
-/

namespace Verif.StatBuf
open Verif.Fs Verif.Kernel Verif.Path

/-- `StatData`, `/repo/src/interface/types.rs` 33-50. -/
structure Buf where
  dev : Nat
  ino : Nat
  mode : BitVec 32
  nlink : Nat
  uid : Nat
  gid : Nat
  rdev : BitVec 64
  size : Nat
  blksize : Int
  blocks : Nat
  atim : Nat × Nat
  mtim : Nat × Nat
  ctim : Nat × Nat
  deriving DecidableEq, Repr

/-- `dev_id`, `/repo/src/safeposix/filesystem.rs` 145. -/
def devId : Nat := 20
/-- `DEFAULT_UID` and `DEFAULT_GID`, `/repo/src/safeposix/syscalls/sys_constants.rs` 12-13; every inode is made with them. -/
def defaultId : Nat := 1000
/-- `STREAMINODE`, `/repo/src/safeposix/syscalls/fs_constants.rs` 17. -/
def streamIno : Nat := 2
/-- `PIPEINODE` and `EPOLLINODE`, `/repo/src/safeposix/syscalls/fs_constants.rs` 18-19. -/
def pipeIno : Nat := 0xfeef0000

/-- `_istat_helper`, `_istat_helper_sock`, `_istat_helper_dir`, `/repo/src/safeposix/syscalls/fs_calls.rs` 1208-1245, which are the
same. -/
def fillPlain (nd : Inode) (b : Buf) : Buf :=
  { b with mode := nd.mode, nlink := nd.link, uid := defaultId, gid := defaultId, rdev := 0, size := nd.size, blksize := 0, blocks := 0 }

/-- `_istat_helper_chr_file`, `/repo/src/safeposix/syscalls/fs_calls.rs` 1250-1259. -/
def fillChr (dev : BitVec 32 × BitVec 32) (nd : Inode) (b : Buf) : Buf :=
  { b with dev := 5, mode := nd.mode, nlink := nd.link, uid := defaultId, gid := defaultId,
           rdev := DevNo.makedev dev.1 dev.2, size := nd.size }

/-- The `match` on the inode, `/repo/src/safeposix/syscalls/fs_calls.rs` 1184-1198, 1346-1359. -/
def fill (nd : Inode) (b : Buf) : Buf :=
  match nd.kind with
  | .chr dev => fillChr dev nd b
  | _ => fillPlain nd b

/-- `_stat_alt_helper`, `/repo/src/safeposix/syscalls/fs_calls.rs` 1263-1274. -/
def fillAlt (ino : Nat) (b : Buf) : Buf :=
  { b with dev := devId, ino := ino, mode := 49590#32, nlink := 1, uid := defaultId, gid := defaultId, rdev := 0, size := 0, blksize := 0,
           blocks := 0 }

/-- `stat_syscall`, `/repo/src/safeposix/syscalls/fs_calls.rs` 1169-1203. -/
def stat (s : State) (cg : Cage) (p : Str) (b : Buf) : Buf × Ret :=
  match s.fs.walk (cg.path p) with
  | none => (b, .panic)
  | some (none, _) => (b, .err .ENOENT)
  | some (some i, _) =>
    match s.fs.inodes i with
    | none => (b, .panic)
    | some nd => (fill nd { b with dev := devId, ino := i }, .ok 0)

/-- `fstat_syscall`, `/repo/src/safeposix/syscalls/fs_calls.rs` 1311-1381. -/
def fstat (s : State) (cg : Cage) (fd : Int) (b : Buf) : Buf × Ret :=
  match getFd cg.fds fd with
  | none => (b, .panic)
  | some none => (b, .err .EBADF)
  | some (some d) =>
    match d with
    | .sock _ => (b, .err .EOPNOTSUPP)
    | .file i _ _ =>
      match s.fs.inodes i with
      | none => (b, .panic)
      | some nd => (fill nd { b with ino := i, dev := devId }, .ok 0)
    | .stream _ _ => (fillAlt streamIno b, .ok 0)
    | .pipe _ _ => (fillAlt pipeIno b, .ok 0)
    | .epoll _ => (fillAlt pipeIno b, .ok 0)

end Verif.StatBuf
