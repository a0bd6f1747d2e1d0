import Verif.Base
import Verif.Path
import Verif.Pipe
import Verif.Fs
import Verif.Getdents

/-!
# Model of cages: descriptor tables, descriptor-based calls, fork, exec, exit

`/repo/src/safeposix/cage.rs`, the descriptor-based parts of
`/repo/src/safeposix/syscalls/fs_calls.rs`, and fork, exec, exit of
`/repo/src/safeposix/syscalls/sys_calls.rs`, on top of `Fs` and `Pipe`.

`step` is one system call of one cage, run without interference from other threads.  A panic ends
the process in the code; here the call returns `panic`.

Simplifications: sockets appear only as freshly created (unconnected internet) sockets, so that
descriptor allocation, copying and closing cover them; socket calls are in their own modules.
Advisory locks, signals, timers, semaphores and shared memory of a cage are in their own modules. Bytes
read from the random devices are not represented.  `SIGPIPE` is not sent here.
-/

namespace Verif.Kernel
open Verif.Path Verif.Fs
open Verif.Pipe (Pipe End)

/-- `MAXFD`, `/repo/src/safeposix/syscalls/fs_constants.rs` 12. -/
def maxFd : Nat := 1024
/-- `MAXCAGEID`, `/repo/src/interface/misc.rs`. -/
def maxCage : Nat := 1024

/-- `FileDescriptor`, `/repo/src/safeposix/cage.rs` 51-99. -/
inductive Desc
  | file (ino pos : Nat) (flags : BitVec 32)
  | pipe (id : Nat) (flags : BitVec 32)
  | stream (n : Nat) (flags : BitVec 32)
  | epoll (flags : BitVec 32)
  | sock (flags : BitVec 32)
  deriving DecidableEq, Repr

/-- The `flags` field. -/
def Desc.flags : Desc → BitVec 32
  | .file _ _ f => f | .pipe _ f => f | .stream _ f => f | .epoll f => f | .sock f => f

/-- Replace the `flags` field. -/
def Desc.setFlags (f : BitVec 32) : Desc → Desc
  | .file i p _ => .file i p f | .pipe i _ => .pipe i f | .stream n _ => .stream n f
  | .epoll _ => .epoll f | .sock _ => .sock f

/-- `is_wronly`, `/repo/src/safeposix/syscalls/fs_constants.rs` 170-172. -/
def isWronly (f : BitVec 32) : Bool := f &&& oRDWRFLAGS == 1#32
/-- `is_rdonly`, `/repo/src/safeposix/syscalls/fs_constants.rs` 173-175. -/
def isRdonly (f : BitVec 32) : Bool := f &&& oRDWRFLAGS == 0#32

/-- Conversion `as i32`. -/
def toI32 (v : Int) : Int := (BitVec.ofInt 32 v).toInt

/-- A descriptor table: slot contents. Only indices below `maxFd` are used. -/
abbrev Table := Nat → Option Desc

/-- The part of `Cage` modelled here, `/repo/src/safeposix/cage.rs` 103-124. -/
structure Cage where
  fds : Table
  cwd : Str
  parent : Nat

/-- The whole state. `cages` is `CAGE_TABLE`; `pipes` are the pipe objects, by creation number. -/
structure State where
  fs : Fs
  cages : Nat → Option Cage
  pipes : Nat → Option Pipe
  npipe : Nat

/-- What a call gives back. -/
structure Out where
  ret : Ret
  /-- bytes stored in the caller's buffer -/
  data : List UInt8 := []
  stat : Option Stat := none
  /-- `pipefd` -/
  pair : Nat × Nat := (0, 0)
  deriving DecidableEq, Repr

/-- A call that only has a return value. -/
def Out.r (r : Ret) : Out := { ret := r }

/-! ## Tables -/

/-- `init_fdtable`, `/repo/src/safeposix/cage.rs` 199-234. -/
def initTable : Table := fun fd => match fd with
  | 0 => some (.stream 0 0#32)
  | 1 => some (.stream 1 1#32)
  | 2 => some (.stream 2 1#32)
  | _ => none

/-- The search loop of `get_next_fd`: `k` slots left, next one `fd`. -/
def nextFdAux (t : Table) : Nat → Nat → Option Nat
  | 0, _ => none
  | k + 1, fd => if (t fd).isNone then some fd else nextFdAux t k (fd + 1)

/-- `get_next_fd`, `/repo/src/safeposix/cage.rs` 127-159; `none` is ENFILE.  Slots locked by other
threads are skipped by the code; here no other thread is active. -/
def nextFd (t : Table) (start : Nat) : Option Nat := nextFdAux t (maxFd - start) start

/-- `get_filedescriptor`, `/repo/src/safeposix/cage.rs` 187-196: `none` if out of range. -/
def getFd (t : Table) (fd : Int) : Option (Option Desc) :=
  if fd < 0 ∨ fd ≥ maxFd then none else some (t fd.toNat)

/-- Replace a cage. -/
def State.setCage (s : State) (c : Nat) (o : Option Cage) : State := { s with cages := upd s.cages c o }

/-- Write a slot of a cage's table. -/
def State.setFd (s : State) (c fd : Nat) (o : Option Desc) : State :=
  match s.cages c with
  | none => s
  | some cg => s.setCage c (some { cg with fds := upd cg.fds fd o })

/-- The names of a normalised path string; what `metawalkandparent` iterates over. -/
def names (p : Str) : List Name :=
  (components p).filterMap (fun c => match c with | .normal n => some n | _ => none)

/-- The names of `normpath(convpath(path), cage)`. -/
def Cage.path (cg : Cage) (p : Str) : List Name := names (normpath cg.cwd p)

/-! ## References -/

/-- Which count of a pipe a descriptor with these flags holds: `incr_ref`/`decr_ref`,
`/repo/src/interface/pipe.rs` 120-145. -/
def endOf (f : BitVec 32) : Option End :=
  if isRdonly f then some .read else if isWronly f then some .write else none

/-- `incr_ref(flags)`. -/
def incrPipe (p : Pipe) (f : BitVec 32) : Pipe := match endOf f with | none => p | some e => p.incr e
/-- `decr_ref(flags)`. -/
def decrPipe (p : Pipe) (f : BitVec 32) : Pipe := match endOf f with | none => p | some e => p.decr e

/-- Take one more reference for a copy of a descriptor; `_dup2_helper`,
`/repo/src/safeposix/syscalls/fs_calls.rs` 3453-3502, and fork,
`/repo/src/safeposix/syscalls/sys_calls.rs` 212-278.  `none` is a panic. -/
def State.bump (s : State) : Desc → Option State
  | .file i _ _ => match s.fs.incRef i with | none => none | some fs => some { s with fs := fs }
  | .pipe id f => match s.pipes id with
    | none => none
    | some p => some { s with pipes := upd s.pipes id (some (incrPipe p f)) }
  | _ => some s

/-- `_close_helper_inner` on an open descriptor, `/repo/src/safeposix/syscalls/fs_calls.rs` 3602-3785. -/
def State.drop (s : State) : Desc → State × Ret
  | .file i _ _ => ({ s with fs := (s.fs.closeIno i).1 }, (s.fs.closeIno i).2)
  | .pipe id f => match s.pipes id with
    | none => (s, .panic)
    | some p => ({ s with pipes := upd s.pipes id (some (decrPipe p f)) }, .ok 0)
  | _ => (s, .ok 0)

/-- `_close_helper` on slot `fd` of cage `c` whose table entry is `o`,
`/repo/src/safeposix/syscalls/fs_calls.rs` 3820-3844. -/
def State.closeSlot (s : State) (c fd : Nat) (o : Option Desc) : State × Ret :=
  match o with
  | none => (s, .err .EBADF)
  | some d =>
    match s.drop d with
    | (s', .ok _) => (s'.setFd c fd none, .ok 0)
    | (s', r) => (s', r)

/-! ## Descriptor calls -/

/-- `close_syscall`, `/repo/src/safeposix/syscalls/fs_calls.rs` 3560-3564. -/
def close (s : State) (c : Nat) (cg : Cage) (fd : Int) : State × Out :=
  match getFd cg.fds fd with
  | none => (s, .r .panic)
  | some o => let r := s.closeSlot c fd.toNat o; (r.1, .r r.2)

/-- The end of `_dup2_helper`: count the copy, clear `O_CLOEXEC`, store it;
`/repo/src/safeposix/syscalls/fs_calls.rs` 3453-3529. -/
def State.putCopy (s : State) (c : Nat) (d : Desc) (newfd : Nat) : State × Out :=
  match s.bump d with
  | none => (s, .r .panic)
  | some s1 => (s1.setFd c newfd (some (d.setFlags (d.flags &&& ~~~oCLOEXEC))), .r (.ok newfd))

/-- An epoll descriptor. -/
def Desc.isEpoll : Desc → Bool | .epoll _ => true | _ => false

/-- `_dup2_helper(_, start, false)`. -/
def dupFrom (s : State) (c : Nat) (cg : Cage) (d : Desc) (start : Nat) : State × Out :=
  match nextFd cg.fds start with
  | none => (s, .r (.err .ENFILE))
  | some fd => if d.isEpoll then (s, .r (.err .EACCES)) else s.putCopy c d fd

/-- `dup_syscall(fd, None)`, as the dispatcher calls it; `/repo/src/safeposix/syscalls/fs_calls.rs`
3279-3306. -/
def dup (s : State) (c : Nat) (cg : Cage) (fd : Int) : State × Out :=
  if fd = 0 then (s, .r (.ok 0))
  else match getFd cg.fds fd with
    | none => (s, .r (.err .EBADF))
    | some none => (s, .r (.err .EBADF))
    | some (some d) => dupFrom s c cg d 0

/-- `dup2_syscall` and `_dup2_helper(_, newfd, true)`, `/repo/src/safeposix/syscalls/fs_calls.rs` 3342-3370,
3422-3530.  What `newfd` designated is released (its slot keeps its content until
it is overwritten) before it is known that the descriptor can be copied. -/
def dup2 (s : State) (c : Nat) (cg : Cage) (old new : Int) : State × Out :=
  if new ≥ maxFd ∨ new < 0 then (s, .r (.err .EBADF))
  else if new = old then (s, .r (.ok new))
  else match getFd cg.fds old with
    | none => (s, .r (.err .EBADF))
    | some none => (s, .r (.err .EBADF))
    | some (some d) =>
      let s1 := match cg.fds new.toNat with
        | none => (s, Ret.ok 0)
        | some dn => s.drop dn
      if s1.2 = .panic then (s1.1, .r .panic)
      else if d.isEpoll then (s1.1, .r (.err .EACCES))
      else s1.1.putCopy c d new.toNat

/-- `fcntl_syscall`, `/repo/src/safeposix/syscalls/fs_calls.rs` 3880-3980
(`F_DUPFD` 0, `F_GETFD` 1, `F_SETFD` 2, `F_GETFL` 3, `F_SETFL` 4, `F_SETOWN` 8, `F_GETOWN` 9). -/
def fcntl (s : State) (c : Nat) (cg : Cage) (fd cmd : Int) (arg : BitVec 32) : State × Out :=
  match getFd cg.fds fd with
  | none => (s, .r .panic)
  | some none => (s, .r (.err .EBADF))
  | some (some d) =>
    let keep := oRDWRFLAGS ||| oCREAT ||| oEXCL ||| oNOCTTY ||| oTRUNC
    if cmd = 1 then (s, .r (.ok (d.flags &&& oCLOEXEC).toInt))
    else if cmd = 2 ∧ arg.toInt ≥ 0 then
      if arg &&& oCLOEXEC ≠ 0 then
        (s.setFd c fd.toNat (some (d.setFlags (d.flags ||| oCLOEXEC))), .r (.ok 0))
      else (s.setFd c fd.toNat (some (d.setFlags (d.flags &&& ~~~oCLOEXEC))), .r (.ok 0))
    else if cmd = 3 then
      (s, .r (.ok (d.flags &&& ~~~(oCREAT ||| oEXCL ||| oNOCTTY ||| oTRUNC)).toInt))
    else if cmd = 4 ∧ arg.toInt ≥ 0 then
      (s.setFd c fd.toNat (some (d.setFlags ((arg &&& ~~~keep) ||| (d.flags &&& keep)))), .r (.ok 0))
    else if cmd = 0 ∧ arg.toInt ≥ 0 then dupFrom s c cg d arg.toNat
    else if cmd = 9 then (s, .r (.ok 0))
    else if cmd = 8 ∧ arg.toInt ≥ 0 then (s, .r (.ok 0))
    else (s, .r (.err .EINVAL))

/-- `pipe2_syscall`, `/repo/src/safeposix/syscalls/fs_calls.rs` 5339-5379.  If the second
descriptor cannot be allocated the first stays. -/
def pipe2 (s : State) (c : Nat) (cg : Cage) (flags : BitVec 32) : State × Out :=
  let fl := flags &&& (oCLOEXEC ||| oNONBLOCK)
  match nextFd cg.fds 0 with
  | none => (s, .r (.err .ENFILE))
  | some rfd =>
    let s1 : State := { s with pipes := upd s.pipes s.npipe (some (Pipe.new Pipe.pipeCapacity))
                               npipe := s.npipe + 1 }
    let s2 := s1.setFd c rfd (some (.pipe s.npipe (0#32 ||| fl)))
    match nextFd (upd cg.fds rfd (some (.pipe s.npipe (0#32 ||| fl)))) 0 with
    | none => (s2, .r (.err .ENFILE))
    | some wfd =>
      (s2.setFd c wfd (some (.pipe s.npipe (1#32 ||| fl))), { ret := .ok 0, pair := (rfd, wfd) })

/-- `_socket_inserter` and `_epoll_object_allocator`: store a new object in the lowest free
slot; `/repo/src/safeposix/syscalls/net_calls.rs` 100-111, 4622-4640. -/
def putNew (s : State) (c : Nat) (cg : Cage) (d : Desc) : State × Out :=
  match nextFd cg.fds 0 with
  | none => (s, .r (.err .ENFILE))
  | some fd => (s.setFd c fd (some d), .r (.ok fd))

/-! ## Calls with a path -/

/-- Run a file system call. -/
def State.onFs (s : State) (r : Fs × Ret) : State × Out := ({ s with fs := r.1 }, .r r.2)

/-- `_file_initializer`, `/repo/src/safeposix/syscalls/fs_calls.rs` 166-182. -/
def newDesc (ino size : Nat) (flags : BitVec 32) : Desc :=
  .file ino (if flags &&& oAPPEND ≠ 0 then size else 0) (flags &&& (oRDWRFLAGS ||| oCLOEXEC))

/-- `open_syscall`, `/repo/src/safeposix/syscalls/fs_calls.rs` 184-435. -/
def openSys (s : State) (c : Nat) (cg : Cage) (p : Str) (flags mode : BitVec 32) : State × Out :=
  if p = [] then (s, .r (.err .ENOENT))
  else match nextFd cg.fds 0 with
    | none => (s, .r (.err .ENFILE))
    | some fd =>
      match s.fs.openP (cg.path p) flags mode with
      | (fs, .failed r) => ({ s with fs := fs }, .r r)
      | (fs, .opened i size) =>
        (({ s with fs := fs } : State).setFd c fd (some (newDesc i size flags)), .r (.ok fd))

/-- `chdir_syscall`, `/repo/src/safeposix/syscalls/fs_calls.rs` 3193-3231. -/
def chdir (s : State) (c : Nat) (cg : Cage) (p : Str) : State × Out :=
  match s.fs.walk (cg.path p) with
  | none => (s, .r .panic)
  | some (none, _) => (s, .r (.err .ENOENT))
  | some (some i, _) =>
    match s.fs.inodes i with
    | none => (s, .r .panic)
    | some nd =>
      if nd.isDir then (s.setCage c (some { cg with cwd := normpath cg.cwd p }), .r (.ok 0))
      else (s, .r (.err .ENOTDIR))

/-- The string `pathnamefrominodenum` builds: `/a/b/`; `/repo/src/safeposix/filesystem.rs` 463-507. -/
def joinPath (ns : List Name) : Str := slash :: ns.flatMap (fun n => n ++ [slash])

/-- `fchdir_syscall`, `/repo/src/safeposix/syscalls/fs_calls.rs` 3113-3159. -/
def fchdir (s : State) (c : Nat) (cg : Cage) (fd : Int) : State × Out :=
  match getFd cg.fds fd with
  | none => (s, .r .panic)
  | some none => (s, .r (.err .EBADF))
  | some (some (.file i _ _)) =>
    match pathOf s.fs.inodes (s.fs.next + 1) i true [] with
    | (.ok _, ns) => (s.setCage c (some { cg with cwd := normpath cg.cwd (joinPath ns) }), .r (.ok 0))
    | (r, _) => (s, .r r)
  | some (some _) => (s, .r (.err .ENOTDIR))

/-- `fstat_syscall`, `/repo/src/safeposix/syscalls/fs_calls.rs` 1311-1381, 1263-1274. -/
def fstat (s : State) (cg : Cage) (fd : Int) : Out :=
  let alt (i : Nat) : Out :=
    { ret := .ok 0, stat := some { ino := i, mode := 49590#32, nlink := 1, size := 0, rdev := 0 } }
  match getFd cg.fds fd with
  | none => .r .panic
  | some none => .r (.err .EBADF)
  | some (some d) =>
    match d with
    | .sock _ => .r (.err .EOPNOTSUPP)
    | .file i _ _ =>
      match s.fs.inodes i with
      | none => .r .panic
      | some nd => { ret := .ok 0, stat := some (statOf i nd) }
    | .stream _ _ => alt 2
    | .pipe _ _ => alt 0xfeef0000
    | .epoll _ => alt 0xfeef0000

/-- `fchmod_syscall`, `/repo/src/safeposix/syscalls/fs_calls.rs` 4299-4346. -/
def fchmod (s : State) (cg : Cage) (fd : Int) (mode : BitVec 32) : State × Out :=
  match getFd cg.fds fd with
  | none => (s, .r .panic)
  | some none => (s, .r (.err .EBADF))
  | some (some (.file i _ _)) => s.onFs (s.fs.chmodIno i mode)
  | some (some _) => (s, .r (.err .EINVAL))

/-- `ftruncate_syscall`, `/repo/src/safeposix/syscalls/fs_calls.rs` 5223-5253. -/
def ftruncate (s : State) (cg : Cage) (fd : Int) (len : Int) : State × Out :=
  match getFd cg.fds fd with
  | none => (s, .r .panic)
  | some none => (s, .r (.err .EBADF))
  | some (some (.file i _ f)) =>
    if isRdonly f then (s, .r (.err .EBADF)) else s.onFs (s.fs.truncIno i len true)
  | some (some _) => (s, .r (.err .EINVAL))

/-! ## Reading and writing -/

/-- `_read_chr_file`, `/repo/src/safeposix/syscalls/fs_calls.rs` 1933-1954. -/
def readChr (dev : BitVec 32 × BitVec 32) (n : Nat) : Out :=
  if dev = (1, 3) then .r (.ok 0)
  else if dev = (1, 5) then { ret := .ok (toI32 n), data := List.replicate n 0 }
  else if dev = (1, 8) ∨ dev = (1, 9) then .r (.ok (toI32 n))
  else .r (.err .EOPNOTSUPP)

/-- `_write_chr_file`, `/repo/src/safeposix/syscalls/fs_calls.rs` 2421-2444. -/
def writeChr (dev : BitVec 32 × BitVec 32) (n : Nat) : Out :=
  if dev = (1, 3) ∨ dev = (1, 5) ∨ dev = (1, 8) ∨ dev = (1, 9) then .r (.ok (toI32 n))
  else .r (.err .EOPNOTSUPP)

/-- `read_syscall`, `/repo/src/safeposix/syscalls/fs_calls.rs` 1580-1742. -/
def read (s : State) (c : Nat) (cg : Cage) (fd : Int) (n : Nat) : State × Out :=
  match getFd cg.fds fd with
  | none => (s, .r .panic)
  | some none => (s, .r (.err .EBADF))
  | some (some d) =>
    match d with
    | .file i pos f =>
      if isWronly f then (s, .r (.err .EBADF))
      else match s.fs.inodes i with
        | none => (s, .r .panic)
        | some nd =>
          match nd.kind with
          | .file =>
            match s.fs.readAt i pos n with
            | none => (s, .r .panic)
            | some bs => (s.setFd c fd.toNat (some (.file i (pos + bs.length) f)),
                { ret := .ok (toI32 bs.length), data := bs })
          | .chr dev => (s, readChr dev n)
          | .sock => (s, .r .panic)
          | .dir => (s, .r (.err .EISDIR))
    | .sock _ => (s, .r (.err .ENOTCONN))
    | .stream _ _ => (s, .r (.err .EOPNOTSUPP))
    | .epoll _ => (s, .r (.err .EINVAL))
    | .pipe id f =>
      if isWronly f then (s, .r (.err .EBADF))
      else match s.pipes id with
        | none => (s, .r .panic)
        | some p =>
          let r := p.readNow n (f &&& oNONBLOCK ≠ 0)
          ({ s with pipes := upd s.pipes id (some r.1) }, { ret := r.2.1, data := r.2.2 })

/-- `pread_syscall`, `/repo/src/safeposix/syscalls/fs_calls.rs` 1791-1893.  A negative offset
becomes a huge one by `as usize` and fails the size check: panic. -/
def pread (s : State) (cg : Cage) (fd : Int) (n : Nat) (off : Int) : State × Out :=
  match getFd cg.fds fd with
  | none => (s, .r .panic)
  | some none => (s, .r (.err .EBADF))
  | some (some d) =>
    match d with
    | .file i _ f =>
      if isWronly f then (s, .r (.err .EBADF))
      else match s.fs.inodes i with
        | none => (s, .r .panic)
        | some nd =>
          match nd.kind with
          | .file =>
            if off < 0 then (s, .r .panic)
            else match s.fs.readAt i off.toNat n with
              | none => (s, .r .panic)
              | some bs => (s, { ret := .ok (toI32 bs.length), data := bs })
          | .chr dev => (s, readChr dev n)
          | .sock => (s, .r .panic)
          | .dir => (s, .r (.err .EISDIR))
    | _ => (s, .r (.err .ESPIPE))

/-- `write_syscall`, `/repo/src/safeposix/syscalls/fs_calls.rs` 2009-2198. -/
def write (s : State) (c : Nat) (cg : Cage) (fd : Int) (data : List UInt8) : State × Out :=
  match getFd cg.fds fd with
  | none => (s, .r .panic)
  | some none => (s, .r (.err .EBADF))
  | some (some d) =>
    match d with
    | .epoll _ => (s, .r (.err .EINVAL))
    | .file i pos f =>
      if isRdonly f then (s, .r (.err .EBADF))
      else match s.fs.inodes i with
        | none => (s, .r .panic)
        | some nd =>
          match nd.kind with
          | .dir => (s, .r (.err .EISDIR))
          | .file =>
            match s.fs.writeIno i nd pos data with
            | none => (s, .r .panic)
            | some fs => (({ s with fs := fs } : State).setFd c fd.toNat
                (some (.file i (pos + data.length) f)), .r (.ok (toI32 data.length)))
          | .chr dev => (s, writeChr dev data.length)
          | .sock => (s, .r .panic)
    | .sock _ => (s, .r (.err .ENOTCONN))
    | .stream k _ =>
      if k = 1 ∨ k = 2 then (s, .r (.ok (toI32 data.length))) else (s, .r (.err .EBADF))
    | .pipe id f =>
      if isRdonly f then (s, .r (.err .EBADF))
      else match s.pipes id with
        | none => (s, .r .panic)
        | some p =>
          let r := p.writeNow data (f &&& oNONBLOCK ≠ 0)
          ({ s with pipes := upd s.pipes id (some r.1) }, .r r.2)

/-- `pwrite_syscall`, `/repo/src/safeposix/syscalls/fs_calls.rs` 2244-2383.  A negative offset becomes a
huge one: panic. -/
def pwrite (s : State) (cg : Cage) (fd : Int) (data : List UInt8) (off : Int) : State × Out :=
  match getFd cg.fds fd with
  | none => (s, .r .panic)
  | some none => (s, .r (.err .EBADF))
  | some (some d) =>
    match d with
    | .file i _ f =>
      if isRdonly f then (s, .r (.err .EBADF))
      else match s.fs.inodes i with
        | none => (s, .r .panic)
        | some nd =>
          match nd.kind with
          | .dir => (s, .r (.err .EISDIR))
          | .file =>
            if off < 0 then (s, .r .panic)
            else match s.fs.writeIno i nd off.toNat data with
              | none => (s, .r .panic)
              | some fs => ({ s with fs := fs }, .r (.ok (toI32 data.length)))
          | .chr dev => (s, writeChr dev data.length)
          | .sock => (s, .r .panic)
    | _ => (s, .r (.err .ESPIPE))

/-- `writev_syscall`, `/repo/src/safeposix/syscalls/fs_calls.rs` 2513-2779. -/
def writev (s : State) (c : Nat) (cg : Cage) (fd : Int) (iovs : List (List UInt8)) : State × Out :=
  match getFd cg.fds fd with
  | none => (s, .r .panic)
  | some none => (s, .r (.err .EBADF))
  | some (some d) =>
    match d with
    | .sock _ => (s, .r (.err .ENOTCONN))
    | .pipe id f =>
      if isRdonly f then (s, .r (.err .EBADF))
      else match s.pipes id with
        | none => (s, .r .panic)
        | some p =>
          let r := p.writevNow iovs (f &&& oNONBLOCK ≠ 0)
          ({ s with pipes := upd s.pipes id (some r.1) }, .r r.2)
    | .stream _ _ => (s, .r (.ok (toI32 iovs.flatten.length)))
    | .file i pos f =>
      if isRdonly f then (s, .r (.err .EBADF))
      else match s.fs.inodes i with
        | none => (s, .r .panic)
        | some nd =>
          match nd.kind with
          | .dir => (s, .r (.err .EISDIR))
          | .file =>
            match s.fs.writeIno i nd pos iovs.flatten with
            | none => (s, .r .panic)
            | some fs => (({ s with fs := fs } : State).setFd c fd.toNat
                (some (.file i (pos + iovs.flatten.length) f)), .r (.ok (toI32 iovs.flatten.length)))
          | .chr dev => (s, writeChr dev iovs.flatten.length)
          | .sock => (s, .r .panic)
    | .epoll _ => (s, .r (.err .EOPNOTSUPP))

/-- `lseek_syscall`, `/repo/src/safeposix/syscalls/fs_calls.rs` 2829-2979
(`SEEK_SET` 0, `SEEK_CUR` 1, `SEEK_END` 2). -/
def lseek (s : State) (c : Nat) (cg : Cage) (fd : Int) (off : Int) (whence : Int) : State × Out :=
  match getFd cg.fds fd with
  | none => (s, .r .panic)
  | some none => (s, .r (.err .EBADF))
  | some (some d) =>
    match d with
    | .file i pos f =>
      match s.fs.inodes i with
      | none => (s, .r .panic)
      | some nd =>
        let target (endPos : Nat) : Option Int :=
          if whence = 0 then some off
          else if whence = 1 then some (pos + off)
          else if whence = 2 then some (endPos + off)
          else none
        match nd.kind with
        | .chr _ => (s, .r (.ok 0))
        | .sock => (s, .r .panic)
        | .file =>
          match target nd.size with
          | none => (s, .r (.err .EINVAL))
          | some e =>
            if e < 0 then (s, .r (.err .EINVAL))
            else (s.setFd c fd.toNat (some (.file i e.toNat f)), .r (.ok (toI32 e)))
        | .dir =>
          match target nd.ents.length with
          | none => (s, .r (.err .EINVAL))
          | some e =>
            if e < 0 then (s, .r (.err .EINVAL))
            else if e > nd.ents.length then (s, .r (.err .EINVAL))
            else (s.setFd c fd.toNat (some (.file i e.toNat f)), .r (.ok (toI32 e)))
    | _ => (s, .r (.err .ESPIPE))

/-- `getdents_syscall`, `/repo/src/safeposix/syscalls/fs_calls.rs` 5422-5533. -/
def getdents (s : State) (c : Nat) (cg : Cage) (fd : Int) (bufsize : Nat) : State × Out :=
  if bufsize ≤ Getdents.clipped then (s, .r (.err .EINVAL))
  else match getFd cg.fds fd with
    | none => (s, .r (.err .EBADF))
    | some none => (s, .r (.err .EBADF))
    | some (some (.file i pos f)) =>
      match s.fs.inodes i with
      | none => (s, .r .panic)
      | some nd =>
        if nd.isDir then
          let r := Getdents.getdents nd.ents pos bufsize
          (s.setFd c fd.toNat (some (.file i r.pos f)), { ret := r.ret, data := r.bytes })
        else (s, .r (.err .ENOTDIR))
    | some (some _) => (s, .r (.err .ESPIPE))

/-! ## Processes -/

/-- The descriptor loop of `fork_syscall`, `/repo/src/safeposix/syscalls/sys_calls.rs` 206-284, for slots
below the first argument.  The child's table is in place from the start here; the code publishes
the child at the end.  `none` is a panic. -/
def forkCopy (t : Table) (child : Nat) : Nat → State → Option State
  | 0, s => some s
  | k + 1, s =>
    match forkCopy t child k s with
    | none => none
    | some s' =>
      match t k with
      | none => some s'
      | some d =>
        match s'.bump d with
        | none => none
        | some s'' => some (s''.setFd child k (some d))

/-- `fork_syscall`, `/repo/src/safeposix/syscalls/sys_calls.rs` 112-410.  `child` is chosen by the caller. -/
def fork (s : State) (c : Nat) (cg : Cage) (child : Nat) : State × Out :=
  if child ≥ maxCage then (s, .r .panic)
  else
    match forkCopy cg.fds child maxFd
        (s.setCage child (some { fds := initTable, cwd := cg.cwd, parent := c })) with
    | none => (s, .r .panic)
    | some s1 =>
      match s.fs.walk (names cg.cwd) with
      | some (some i, _) =>
        match s1.fs.inodes i with
        | none => (s, .r .panic)
        | some nd =>
          if nd.isDir then
            ({ s1 with fs := s1.fs.set i (some { nd with ref := nd.ref + 1 }) }, .r (.ok 0))
          else (s, .r .panic)
      | _ => (s, .r .panic)

/-- Close the slots below the bound that satisfy `sel`; stops at a panic.
`/repo/src/safeposix/syscalls/sys_calls.rs` 448-475 (exec), 570-573 (exit). -/
def closeWhere (sel : Desc → Bool) (c : Nat) : Nat → State → State × Ret
  | 0, s => (s, .ok 0)
  | k + 1, s =>
    match closeWhere sel c k s with
    | (s', .panic) => (s', .panic)
    | (s', _) =>
      match s'.cages c with
      | none => (s', .ok 0)
      | some cg =>
        match cg.fds k with
        | none => (s', .ok 0)
        | some d => if sel d then s'.closeSlot c k (some d) else (s', .ok 0)

/-- `exec_syscall`, `/repo/src/safeposix/syscalls/sys_calls.rs` 440-531.  The code takes the old cage out of
the table first; here this happens after its close-on-exec descriptors are closed. -/
def exec (s : State) (c : Nat) (_cg : Cage) (child : Nat) : State × Out :=
  if child ≥ maxCage then (s, .r .panic)
  else
    match closeWhere (fun d => d.flags &&& oCLOEXEC != 0) c maxFd s with
    | (s', .panic) => (s', .r .panic)
    | (s', _) =>
      match s'.cages c with
      | none => (s', .r .panic)
      | some cg' => ((s'.setCage c none).setCage child (some cg'), .r (.ok 0))

/-- `exit_syscall`, `/repo/src/safeposix/syscalls/sys_calls.rs` 563-591. -/
def exit (s : State) (c : Nat) (status : Int) : State × Out :=
  match closeWhere (fun _ => true) c maxFd s with
  | (s', .panic) => (s', .r .panic)
  | (s', _) => (s'.setCage c none, .r (.ok status))

/-! ## The transition function -/

/-- System calls. -/
inductive Op
  | openP (p : Str) (flags mode : BitVec 32)
  | mkdir (p : Str) (mode : BitVec 32)
  | mknod (p : Str) (mode : BitVec 32) (dev : BitVec 64)
  | link (old new : Str)
  | unlink (p : Str)
  | rmdir (p : Str)
  | rename (old new : Str)
  | chmod (p : Str) (mode : BitVec 32)
  | fchmod (fd : Int) (mode : BitVec 32)
  | stat (p : Str)
  | fstat (fd : Int)
  | access (p : Str) (amode : BitVec 32)
  | chdir (p : Str)
  | fchdir (fd : Int)
  | truncate (p : Str) (len : Int)
  | ftruncate (fd len : Int)
  | read (fd : Int) (n : Nat)
  | pread (fd : Int) (n : Nat) (off : Int)
  | write (fd : Int) (data : List UInt8)
  | pwrite (fd : Int) (data : List UInt8) (off : Int)
  | writev (fd : Int) (iovs : List (List UInt8))
  | lseek (fd off whence : Int)
  | getdents (fd : Int) (bufsize : Nat)
  | dup (fd : Int)
  | dup2 (old new : Int)
  | close (fd : Int)
  | fcntl (fd cmd : Int) (arg : BitVec 32)
  | pipe2 (flags : BitVec 32)
  | socket (nonblock cloexec : Bool)
  | epollCreate (size : Int)
  | fork (child : Nat)
  | exec (child : Nat)
  | exit (status : Int)
  deriving DecidableEq, Repr

/-- Most path calls reject the empty path. -/
def nonEmpty (p : Str) (s : State) (r : State × Out) : State × Out :=
  if p = [] then (s, .r (.err .ENOENT)) else r

/-- One system call of cage `c`.  A call of a cage that does not exist panics in
`cagetable_getref`, `/repo/src/interface/misc.rs` 83-86. -/
def step (s : State) (c : Nat) (op : Op) : State × Out :=
  match s.cages c with
  | none => (s, .r .panic)
  | some cg =>
    match op with
    | .openP p flags mode => openSys s c cg p flags mode
    | .mkdir p mode => nonEmpty p s (s.onFs (s.fs.mkdir (cg.path p) mode))
    | .mknod p mode dev => nonEmpty p s (s.onFs (s.fs.mknod (cg.path p) mode dev))
    | .link o n => nonEmpty o s (nonEmpty n s (s.onFs (s.fs.link (cg.path o) (cg.path n))))
    | .unlink p => nonEmpty p s (s.onFs (s.fs.unlink (cg.path p)))
    | .rmdir p => nonEmpty p s (s.onFs (s.fs.rmdir (cg.path p)))
    | .rename o n => nonEmpty o s (nonEmpty n s (s.onFs (s.fs.rename (cg.path o) (cg.path n))))
    | .chmod p mode => s.onFs (s.fs.chmod (cg.path p) mode)
    | .fchmod fd mode => fchmod s cg fd mode
    | .stat p => (s, { ret := (s.fs.stat (cg.path p)).1, stat := (s.fs.stat (cg.path p)).2 })
    | .fstat fd => (s, fstat s cg fd)
    | .access p m => (s, .r (s.fs.access (cg.path p) m))
    | .chdir p => chdir s c cg p
    | .fchdir fd => fchdir s c cg fd
    | .truncate p len => s.onFs (s.fs.truncate (cg.path p) len)
    | .ftruncate fd len => ftruncate s cg fd len
    | .read fd n => read s c cg fd n
    | .pread fd n off => pread s cg fd n off
    | .write fd data => write s c cg fd data
    | .pwrite fd data off => pwrite s cg fd data off
    | .writev fd iovs => writev s c cg fd iovs
    | .lseek fd off wh => lseek s c cg fd off wh
    | .getdents fd b => getdents s c cg fd b
    | .dup fd => dup s c cg fd
    | .dup2 o n => dup2 s c cg o n
    | .close fd => close s c cg fd
    | .fcntl fd cmd arg => fcntl s c cg fd cmd arg
    | .pipe2 fl => pipe2 s c cg fl
    | .socket nb ce => putNew s c cg
        (.sock ((if nb then oNONBLOCK else 0) ||| (if ce then oCLOEXEC else 0)))
    | .epollCreate n => if n ≤ 0 then (s, .r (.err .EINVAL)) else putNew s c cg (.epoll 0)
    | .fork ch => fork s c cg ch
    | .exec ch => exec s c cg ch
    | .exit st => exit s c st

/-- Run a history of calls. -/
def run (s : State) : List (Nat × Op) → State
  | [] => s
  | (c, op) :: h => run (step s c op).1 h

/-- `incref_root`, `/repo/src/safeposix/filesystem.rs` 638-646. -/
def increfRoot (fs : Fs) : Fs :=
  match fs.inodes rootIno with
  | none => fs
  | some nd => fs.set rootIno (some { nd with ref := nd.ref + 1 })

/-- `lindrustinit` without the last line, on a given file system: cages 0 and 1 in the root directory;
`/repo/src/safeposix/dispatcher.rs` 1037-1090. -/
def boot (fs : Fs) : State where
  fs := increfRoot (increfRoot fs)
  cages := fun c =>
    if c = 0 then some { fds := initTable, cwd := [slash], parent := 0 }
    else if c = 1 then some { fds := initTable, cwd := [slash], parent := 1 }
    else none
  pipes := fun _ => none
  npipe := 0

/-- The path `/tmp`. -/
def pTmp : Str := slash :: nTmp

/-- `lindrustinit` on a new disk: format, boot, and `cleartmp(true)`, which makes `/tmp`;
`/repo/src/safeposix/dispatcher.rs` 988-1007, 1092. -/
def init : State := (step (boot format) 0 (.mkdir pTmp sIRWXA)).1

end Verif.Kernel
