import Verif.Base
import Verif.Path
import Verif.DevNo

/-!
# Model of the file system: inode table, path walk, namespace calls, file data

`/repo/src/safeposix/filesystem.rs` and the path-based and inode-based parts of
`/repo/src/safeposix/syscalls/fs_calls.rs`, `/repo/src/interface/file.rs` 24-292.

A path argument here is the list of names of a normalised absolute path
(`Path.normpath_canonical` shows that every path string is turned into such a list before it is
looked up).  Each call is one atomic step.

Not modelled: the times, uid and gid of inodes (they are constants or clock readings that no
modelled call branches on), failures and short transfers of the host file system, arithmetic overflow of
64-bit sizes and 32-bit link counts.
-/

namespace Verif.Fs
open Verif.Path

/-- A file name. -/
abbrev Name := Str

/-! ## Constants, `/repo/src/safeposix/syscalls/fs_constants.rs` 16-94 -/

/-- `ROOTDIRECTORYINODE` -/
def rootIno : Nat := 1
/-- `S_IRWXA` -/
def sIRWXA : BitVec 32 := 0o777#32
/-- `S_FILETYPEFLAGS` -/
def sFileType : BitVec 32 := 0o170000#32
/-- `S_IFREG` -/
def sIFREG : BitVec 32 := 0o100000#32
/-- `S_IFDIR` -/
def sIFDIR : BitVec 32 := 0o40000#32
/-- `S_IFCHR` -/
def sIFCHR : BitVec 32 := 0o20000#32
/-- `S_IWOTH | S_IWGRP | S_IWUSR` -/
def sIWALL : BitVec 32 := 0o222#32
/-- `O_RDWRFLAGS` -/
def oRDWRFLAGS : BitVec 32 := 0o3#32
/-- `O_CREAT` -/
def oCREAT : BitVec 32 := 0o100#32
/-- `O_EXCL` -/
def oEXCL : BitVec 32 := 0o200#32
/-- `O_NOCTTY` -/
def oNOCTTY : BitVec 32 := 0o400#32
/-- `O_TRUNC` -/
def oTRUNC : BitVec 32 := 0o1000#32
/-- `O_APPEND` -/
def oAPPEND : BitVec 32 := 0o2000#32
/-- `O_NONBLOCK` -/
def oNONBLOCK : BitVec 32 := 0o4000#32
/-- `O_CLOEXEC` -/
def oCLOEXEC : BitVec 32 := 0o2000000#32

/-- `mode & (S_IRWXA | S_FILETYPEFLAGS) == mode`, the mode check of open, mkdir and mknod. -/
def saneMode (m : BitVec 32) : Bool := m &&& (sIRWXA ||| sFileType) == m

/-- `is_dir`, `/repo/src/safeposix/syscalls/fs_constants.rs` 166-168. -/
def modeIsDir (m : BitVec 32) : Bool := m &&& sFileType == sIFDIR

/-! ## State -/

/-- The variants of `Inode`, `/repo/src/safeposix/filesystem.rs` 45-51. -/
inductive Kind
  | file | dir | chr (dev : BitVec 32 × BitVec 32) | sock
  deriving DecidableEq, Repr

/-- `GenericInode`, `DeviceInode`, `SocketInode`, `DirectoryInode`, `/repo/src/safeposix/filesystem.rs`
53-122, as one record; `ents` is `filename_to_inode_dict` (empty for the other variants). -/
structure Inode where
  kind : Kind
  mode : BitVec 32
  size : Nat
  link : Nat
  ref : Nat
  ents : List (Name × Nat)
  deriving DecidableEq, Repr

/-- `Inode::Dir(_)`. -/
def Inode.isDir (nd : Inode) : Bool := match nd.kind with | .dir => true | _ => false
/-- `Inode::File(_)`. -/
def Inode.isFile (nd : Inode) : Bool := match nd.kind with | .file => true | _ => false
/-- `Inode::Socket(_)`. -/
def Inode.isSock (nd : Inode) : Bool := match nd.kind with | .sock => true | _ => false

/-- The file system.  `inodes`/`next` are `FS_METADATA.inodetable`/`nextinode`; `fobj` is
`FILEOBJECTTABLE` (per inode the `filesize` of its `EmulatedFile`); `disk` are the host files
`linddata.N`; `log` the entries `log_metadata` appended since boot; `dom` is
`NET_METADATA.domsock_paths`. -/
structure Fs where
  inodes : Nat → Option Inode
  next : Nat
  fobj : Nat → Option Nat
  disk : Nat → Option (List UInt8)
  log : List (Nat × Option Inode)
  dom : List (List Name)

/-! ## Directory dictionaries: `DashMap<String, usize>` -/

/-- `dict.get(name)` -/
def entGet : List (Name × Nat) → Name → Option Nat
  | [], _ => none
  | (m, i) :: es, n => if m = n then some i else entGet es n

/-- `dict.remove(name)` -/
def entDel : List (Name × Nat) → Name → List (Name × Nat)
  | [], _ => []
  | (m, i) :: es, n => if m = n then entDel es n else (m, i) :: entDel es n

/-- `dict.insert(name, inode)` (replaces an existing entry) -/
def entPut (es : List (Name × Nat)) (n : Name) (i : Nat) : List (Name × Nat) :=
  (n, i) :: entDel es n

/-- `init_filename_to_inode_dict`, `/repo/src/safeposix/filesystem.rs` 131-139. -/
def initEnts (self par : Nat) : List (Name × Nat) := [(dot, self), (dotdot, par)]

/-! ## Elementary updates -/

/-- Replace the inode stored under a number. -/
def Fs.set (fs : Fs) (i : Nat) (o : Option Inode) : Fs := { fs with inodes := upd fs.inodes i o }

/-- `log_metadata`, `/repo/src/safeposix/filesystem.rs` 399-416: append the present state of
the inode (or its absence).  The byte-level framing is modelled in `LogFile`. -/
def Fs.logIno (fs : Fs) (i : Nat) : Fs := { fs with log := fs.log ++ [(i, fs.inodes i)] }

/-! ## Path walk -/

/-- The loop of `metawalkandparent`, `/repo/src/safeposix/filesystem.rs` 537-582, over the names of a
normalised path.  First result component `inodeno`, second `previnodeno`.  `none` is the panic of
`curnode.unwrap()` when a directory entry leads to an inode that does not exist. -/
def walkFrom (ino : Nat → Option Inode) :
    List Name → Option Nat → Option Nat → Option (Option Nat × Option Nat)
  | [], i, par => some (i, par)
  | _ :: _, none, _ => some (none, none)
  | n :: ns, some i, _ =>
    match ino i with
    | none => none
    | some nd =>
      if nd.isDir then walkFrom ino ns (entGet nd.ents n) (some i)
      else some (none, none)

/-- `metawalkandparent`, `/repo/src/safeposix/filesystem.rs` 531-585.  -/
def Fs.walk (fs : Fs) (p : List Name) : Option (Option Nat × Option Nat) :=
  match fs.inodes rootIno with
  | none => none
  | some _ => walkFrom fs.inodes p (some rootIno) none

/-! ## Creation -/

/-- The part common to open, mkdir and mknod of a new name: take a number, enter it in the parent
directory, store the inode, log both.  `/repo/src/safeposix/syscalls/fs_calls.rs` 268-293, 519-557,
696-721.  `none` is a panic.  The callers treat a parent that is not a directory
differently (ENOTDIR, `unreachable!`, ignored); `walk` never returns such a parent
(`walk_parent_dir` in `FsLemmas`), so that branch is one panic here. -/
def Fs.create (fs : Fs) (par : Nat) (name : Name) (nd : Nat → Inode) : Option Fs :=
  match fs.inodes par with
  | none => none
  | some pd =>
    if pd.isDir then
      let pd' := { pd with ents := entPut pd.ents name fs.next, link := pd.link + 1 }
      let fs1 := { fs with inodes := upd (upd fs.inodes par (some pd')) fs.next (some (nd fs.next))
                           next := fs.next + 1 }
      some ((fs1.logIno par).logIno fs.next)
    else none

/-- `removefile("linddata.N")`, `/repo/src/interface/file.rs` 24-32. -/
def Fs.rmHost (fs : Fs) (i : Nat) : Fs := { fs with disk := upd fs.disk i none }

/-- `openfile("linddata.N", size)`, `/repo/src/interface/file.rs` 34-36, 55-67: create the host file if
it is missing, and enter the `EmulatedFile` in `FILEOBJECTTABLE` if there is none. -/
def Fs.openObj (fs : Fs) (i size : Nat) : Fs :=
  match fs.fobj i with
  | some _ => fs
  | none => { fs with fobj := upd fs.fobj i (some size)
                      disk := upd fs.disk i (some ((fs.disk i).getD [])) }

/-- Outcome of the file system part of `open_syscall`. -/
inductive OpenRes
  /-- descriptor for this inode; the size is what `_file_initializer` gets -/
  | opened (ino size : Nat)
  | failed (r : Ret)
  deriving DecidableEq, Repr

/-- The case of `open_syscall` where the path exists, `/repo/src/safeposix/syscalls/fs_calls.rs`
314-410. -/
def Fs.openExisting (fs : Fs) (i : Nat) (flags : BitVec 32) : Fs × OpenRes :=
  if flags &&& (oCREAT ||| oEXCL) = oCREAT ||| oEXCL then (fs, .failed (.err .EEXIST))
  else match fs.inodes i with
    | none => (fs, .failed .panic)
    | some nd =>
      match nd.kind with
      | .sock => (fs, .failed (.err .ENXIO))
      | .file =>
        if flags &&& oTRUNC = oTRUNC then
          match fs.disk i with
          | none => (fs, .failed .panic)
          | some _ =>
            let fs1 := { fs with fobj := upd fs.fobj i none }
            let fs2 := (fs1.rmHost i).openObj i 0
            (fs2.set i (some { nd with size := 0, ref := nd.ref + 1 }), .opened i 0)
        else
          ((fs.openObj i nd.size).set i (some { nd with ref := nd.ref + 1 }), .opened i nd.size)
      | _ => (fs.set i (some { nd with ref := nd.ref + 1 }), .opened i nd.size)

/-- The new inode of `open_syscall`, `/repo/src/safeposix/syscalls/fs_calls.rs` 248-265. -/
def newFile (mode : BitVec 32) : Inode :=
  { kind := .file, mode := sIFREG ||| mode, size := 0, link := 1, ref := 1, ents := [] }

/-- The file system part of `open_syscall`, `/repo/src/safeposix/syscalls/fs_calls.rs` 214-432 (the
empty path and the choice of the descriptor are in `Kernel`). -/
def Fs.openP (fs : Fs) (p : List Name) (flags mode : BitVec 32) : Fs × OpenRes :=
  match fs.walk p with
  | none => (fs, .failed .panic)
  | some (some i, _) => fs.openExisting i flags
  | some (none, none) => (fs, .failed (.err .ENOENT))
  | some (none, some par) =>
    if flags &&& oCREAT = 0 then (fs, .failed (.err .ENOENT))
    else if flags &&& sIFCHR = sIFCHR then (fs, .failed (.err .EINVAL))
    else if !saneMode mode then (fs, .failed (.err .EPERM))
    else match p.getLast? with
      | none => (fs, .failed .panic)
      | some name =>
        match fs.create par name (fun _ => newFile mode) with
        | none => (fs, .failed .panic)
        | some fs1 => (fs1.openObj fs.next 0, .opened fs.next 0)

/-- `mkdir_syscall`, `/repo/src/safeposix/syscalls/fs_calls.rs` 488-570. -/
def Fs.mkdir (fs : Fs) (p : List Name) (mode : BitVec 32) : Fs × Ret :=
  match fs.walk p with
  | none => (fs, .panic)
  | some (some _, _) => (fs, .err .EEXIST)
  | some (none, none) => (fs, .err .ENOENT)
  | some (none, some par) =>
    if !saneMode mode then (fs, .err .EPERM)
    else match p.getLast? with
      | none => (fs, .panic)
      | some name =>
        match fs.create par name (fun new =>
          { kind := .dir, mode := sIFDIR ||| mode, size := 0, link := 3, ref := 0,
            ents := initEnts new par }) with
        | none => (fs, .panic)
        | some fs1 => (fs1, .ok 0)

/-- `mknod_syscall`, `/repo/src/safeposix/syscalls/fs_calls.rs` 644-739. -/
def Fs.mknod (fs : Fs) (p : List Name) (mode : BitVec 32) (dev : BitVec 64) : Fs × Ret :=
  match fs.walk p with
  | none => (fs, .panic)
  | some (some _, _) => (fs, .err .EEXIST)
  | some (none, none) => (fs, .err .ENOENT)
  | some (none, some par) =>
    if !saneMode mode then (fs, .err .EPERM)
    else if mode &&& sIFCHR = 0 then (fs, .err .EINVAL)
    else match p.getLast? with
      | none => (fs, .panic)
      | some name =>
        match fs.create par name (fun _ =>
          { kind := .chr (DevNo.devtuple dev), mode := mode, size := 0, link := 1, ref := 0,
            ents := [] }) with
        | none => (fs, .panic)
        | some fs1 => (fs1, .ok 0)

/-- `link_syscall`, `/repo/src/safeposix/syscalls/fs_calls.rs` 799-930.  The link count goes up
before the new path is looked up and down again on failure. -/
def Fs.link (fs : Fs) (old new : List Name) : Fs × Ret :=
  match new.getLast? with
  | none => (fs, .panic)
  | some name =>
    match fs.walk old with
    | none => (fs, .panic)
    | some (none, _) => (fs, .err .ENOENT)
    | some (some i, _) =>
      match fs.inodes i with
      | none => (fs, .panic)
      | some nd =>
        if nd.isDir then (fs, .err .EPERM)
        else
          let fs1 := fs.set i (some { nd with link := nd.link + 1 })
          let undo := fs1.set i (some { nd with link := nd.link + 1 - 1 })
          match fs1.walk new with
          | none => (fs1, .panic)
          | some (some _, _) => (undo, .err .EEXIST)
          | some (none, none) => (undo, .err .ENOENT)
          | some (none, some par) =>
            match fs1.inodes par with
            | none => (fs1, .panic)
            | some pd =>
              if pd.isDir then
                let fs2 := fs1.set par
                  (some { pd with ents := entPut pd.ents name i, link := pd.link + 1 })
                ((fs2.logIno par).logIno i, .ok 0)
              else (fs1, .panic)

/-- `remove_from_parent_dir`, `/repo/src/safeposix/syscalls/fs_calls.rs` 4664-4693. -/
def Fs.removeFromParent (fs : Fs) (par : Nat) (p : List Name) : Fs × Ret :=
  match fs.inodes par with
  | none => (fs, .panic)
  | some pd =>
    if pd.isDir then
      if pd.mode &&& sIWALL = 0 then (fs, .err .EPERM)
      else match p.getLast? with
        | none => (fs, .panic)
        | some name =>
          match entGet pd.ents name with
          | none => (fs, .panic)
          | some _ =>
            (fs.set par (some { pd with ents := entDel pd.ents name, link := pd.link - 1 }), .ok 0)
    else (fs, .panic)

/-- `unlink_syscall`, `/repo/src/safeposix/syscalls/fs_calls.rs` 978-1075.  The link count
goes down first; if the parent is not writable the call fails and leaves it so. -/
def Fs.unlink (fs : Fs) (p : List Name) : Fs × Ret :=
  match fs.walk p with
  | none => (fs, .panic)
  | some (none, _) => (fs, .err .ENOENT)
  | some (some _, none) => (fs, .err .EISDIR)
  | some (some i, some par) =>
    match fs.inodes i with
    | none => (fs, .panic)
    | some nd =>
      if nd.isDir then (fs, .err .EISDIR)
      else
        let nd' := { nd with link := nd.link - 1 }
        let fs1 := fs.set i (some nd')
        match fs1.removeFromParent par p with
        | (fs2, .ok _) =>
          let fs3 :=
            if nd'.link = 0 ∧ nd'.ref = 0 then
              if nd.isFile then (fs2.set i none).rmHost i else fs2.set i none
            else fs2
          let fs4 := { fs3 with dom := fs3.dom.filter (· ≠ p) }
          if nd.isFile ∧ nd'.link = 0 ∧ nd'.ref = 0 ∧ fs2.disk i = none then (fs4, .panic)
          else if nd.isSock then (fs4, .ok 0)
          else ((fs4.logIno par).logIno i, .ok 0)
        | (fs2, r) => (fs2, r)

/-- `rmdir_syscall`, `/repo/src/safeposix/syscalls/fs_calls.rs` 4736-4866. -/
def Fs.rmdir (fs : Fs) (p : List Name) : Fs × Ret :=
  match fs.walk p with
  | none => (fs, .panic)
  | some (none, _) => (fs, .err .ENOENT)
  | some (some _, none) => (fs, .err .EBUSY)
  | some (some i, some par) =>
    match fs.inodes par with
    | none => (fs, .panic)
    | some pd =>
      if pd.isDir ∧ pd.mode &&& sIWALL = 0 then (fs, .err .EPERM)
      else match fs.inodes i with
        | none => (fs, .panic)
        | some nd =>
          if nd.isDir then
            if nd.link > 3 then (fs, .err .ENOTEMPTY)
            else if !modeIsDir nd.mode then (fs, .panic)
            else if nd.mode &&& sIWALL = 0 then (fs, .err .EPERM)
            else
              let fs1 := if nd.ref = 0 then fs.set i (some { nd with link := 2 }) else fs
              match fs1.removeFromParent par p with
              | (fs2, .ok _) =>
                let fs3 := if nd.ref = 0 then fs2.set i none else fs2
                ((fs3.logIno par).logIno i, .ok 0)
              | (fs2, r) => (fs2, r)
          else (fs, .err .ENOTDIR)

/-- `rename_syscall`, `/repo/src/safeposix/syscalls/fs_calls.rs` 4910-4973. -/
def Fs.rename (fs : Fs) (old new : List Name) : Fs × Ret :=
  match fs.walk old with
  | none => (fs, .panic)
  | some (none, _) => (fs, .err .EEXIST)
  | some (some _, none) => (fs, .err .EBUSY)
  | some (some i, some par) =>
    match fs.walk new with
    | none => (fs, .panic)
    | some (_, newPar) =>
      if newPar ≠ some par then (fs, .err .EOPNOTSUPP)
      else match fs.inodes par, old.getLast?, new.getLast? with
        | some pd, some o, some n =>
          let fs1 :=
            if pd.isDir then
              (fs.set par (some { pd with ents := entDel (entPut pd.ents n i) o })).logIno par
            else fs
          ({ fs1 with dom := (new :: fs1.dom).filter (· ≠ old) }, .ok 0)
        | _, _, _ => (fs, .panic)

/-- `_chmod_helper`, `/repo/src/safeposix/syscalls/fs_calls.rs` 4142-4198. -/
def Fs.chmodIno (fs : Fs) (i : Nat) (mode : BitVec 32) : Fs × Ret :=
  if mode &&& sIRWXA = mode then
    match fs.inodes i with
    | none => (fs, .panic)
    | some nd =>
      let fs1 := fs.set i (some { nd with mode := (nd.mode &&& ~~~sIRWXA) ||| mode })
      (if nd.isSock then fs1 else fs1.logIno i, .ok 0)
  else (fs, .err .EINVAL)

/-- `chmod_syscall`, `/repo/src/safeposix/syscalls/fs_calls.rs` 4239-4260. -/
def Fs.chmod (fs : Fs) (p : List Name) (mode : BitVec 32) : Fs × Ret :=
  match fs.walk p with
  | none => (fs, .panic)
  | some (none, _) => (fs, .err .ENOENT)
  | some (some i, _) => fs.chmodIno i mode

/-- `access_syscall`, `/repo/src/safeposix/syscalls/fs_calls.rs` 3019-3078
(`X_OK` 1, `W_OK` 2, `R_OK` 4). -/
def Fs.access (fs : Fs) (p : List Name) (amode : BitVec 32) : Ret :=
  match fs.walk p with
  | none => .panic
  | some (none, _) => .err .ENOENT
  | some (some i, _) =>
    match fs.inodes i with
    | none => .panic
    | some nd =>
      let want := (if amode &&& 1#32 = 1#32 then 0o100#32 else 0) |||
        (if amode &&& 2#32 = 2#32 then 0o200#32 else 0) |||
        (if amode &&& 4#32 = 4#32 then 0o400#32 else 0)
      if nd.mode &&& want = want then .ok 0 else .err .EACCES

/-- The fields of `StatData` that depend on the inode; `/repo/src/safeposix/syscalls/fs_calls.rs`
1205-1274. -/
structure Stat where
  ino : Nat
  mode : BitVec 32
  nlink : Nat
  size : Nat
  rdev : BitVec 64
  deriving DecidableEq, Repr

/-- `_istat_helper*`, `/repo/src/safeposix/syscalls/fs_calls.rs` 1208-1259. -/
def statOf (i : Nat) (nd : Inode) : Stat :=
  { ino := i, mode := nd.mode, nlink := nd.link, size := nd.size,
    rdev := match nd.kind with | .chr (a, b) => DevNo.makedev a b | _ => 0 }

/-- `stat_syscall`, `/repo/src/safeposix/syscalls/fs_calls.rs` 1169-1203. -/
def Fs.stat (fs : Fs) (p : List Name) : Ret × Option Stat :=
  match fs.walk p with
  | none => (.panic, none)
  | some (none, _) => (.err .ENOENT, none)
  | some (some i, _) =>
    match fs.inodes i with
    | none => (.panic, none)
    | some nd => (.ok 0, some (statOf i nd))

/-! ## File data -/

/-- `pwrite` on a host file. -/
def overwrite (d : List UInt8) (off : Nat) (data : List UInt8) : List UInt8 :=
  if data = [] then d
  else d.take off ++ List.replicate (off - d.length) 0 ++ data ++ d.drop (off + data.length)

/-- `EmulatedFile::readat`, `/repo/src/interface/file.rs` 149-166; `none` is a panic. -/
def Fs.readAt (fs : Fs) (i off n : Nat) : Option (List UInt8) :=
  match fs.fobj i with
  | none => none
  | some sz => if off > sz then none else some ((((fs.disk i).getD []).drop off).take n)

/-- `EmulatedFile::writeat`, `/repo/src/interface/file.rs` 172-202; also `zerofill_at` 261-282 with a
buffer of zeros; `none` is a panic. -/
def Fs.writeAt (fs : Fs) (i off : Nat) (data : List UInt8) : Option Fs :=
  match fs.fobj i with
  | none => none
  | some sz =>
    if off > sz then none
    else some { fs with disk := upd fs.disk i (some (overwrite ((fs.disk i).getD []) off data))
                        fobj := upd fs.fobj i (some (max sz (off + data.length))) }

/-- The `Inode::File` case of write and pwrite, `/repo/src/safeposix/syscalls/fs_calls.rs` 2065-2113,
2314-2360 (and writev 2687-2737 with the concatenated buffers): fill the gap
with zeros, write, extend `size` and log if the file grew.  `none` is a panic. -/
def Fs.writeIno (fs : Fs) (i : Nat) (nd : Inode) (off : Nat) (data : List UInt8) : Option Fs :=
  let fs1 := if off > nd.size then fs.writeAt i nd.size (List.replicate (off - nd.size) 0)
    else if (fs.fobj i).isNone then none else some fs
  match fs1 with
  | none => none
  | some fs1 =>
    match fs1.writeAt i off data with
    | none => none
    | some fs2 =>
      if off + data.length > nd.size then
        some ((fs2.set i (some { nd with size := off + data.length })).logIno i)
      else some fs2

/-- `_truncate_helper`, `/repo/src/safeposix/syscalls/fs_calls.rs` 4975-5055.  `mustExist` is
`file_must_exist`. A temporarily opened `EmulatedFile` is dropped again at the end. -/
def Fs.truncIno (fs : Fs) (i : Nat) (len : Int) (mustExist : Bool) : Fs × Ret :=
  if len < 0 then (fs, .err .EINVAL)
  else match fs.inodes i with
    | none => (fs, .panic)
    | some nd =>
      match nd.kind with
      | .chr _ => (fs, .err .EINVAL)
      | .sock => (fs, .err .EINVAL)
      | .dir => (fs, .err .EISDIR)
      | .file =>
        let n := len.toNat
        if (fs.fobj i).isNone ∧ mustExist then (fs, .panic)
        else
          let fs1 := fs.openObj i nd.size
          let fs2 : Option Fs :=
            if nd.size < n then fs1.writeAt i nd.size (List.replicate (n - nd.size) 0)
            else match fs1.fobj i with
              | none => none
              | some sz =>
                -- `shrink`, `/repo/src/interface/file.rs` 90-106
                if n > sz then none
                else some { fs1 with disk := upd fs1.disk i (some (((fs1.disk i).getD []).take n))
                                     fobj := upd fs1.fobj i (some n) }
          match fs2 with
          | none => (fs, .panic)
          | some fs2 =>
            let fs3 := { fs2 with fobj := if (fs.fobj i).isNone then upd fs2.fobj i none else fs2.fobj }
            ((fs3.set i (some { nd with size := n })).logIno i, .ok 0)

/-- `truncate_syscall`, `/repo/src/safeposix/syscalls/fs_calls.rs` 5256-5269. -/
def Fs.truncate (fs : Fs) (p : List Name) (len : Int) : Fs × Ret :=
  match fs.walk p with
  | none => (fs, .panic)
  | some (none, _) => (fs, .err .ENOENT)
  | some (some i, _) => fs.truncIno i len false

/-! ## References from descriptors -/

/-- `refcount += 1` for a descriptor that gets a copy (dup, fork): `/repo/src/safeposix/syscalls/fs_calls.rs`
3454-3474, `/repo/src/safeposix/syscalls/sys_calls.rs` 222-240.  `none` is a panic. -/
def Fs.incRef (fs : Fs) (i : Nat) : Option Fs :=
  match fs.inodes i with
  | none => none
  | some nd => some (fs.set i (some { nd with ref := nd.ref + 1 }))

/-- The `File` case of `_close_helper_inner`, `/repo/src/safeposix/syscalls/fs_calls.rs` 3673-3781. -/
def Fs.closeIno (fs : Fs) (i : Nat) : Fs × Ret :=
  match fs.inodes i with
  | none => (fs, .panic)
  | some nd =>
    let nd' := { nd with ref := nd.ref - 1 }
    let fs1 := fs.set i (some nd')
    match nd.kind with
    | .sock => (fs, .panic)
    | .file =>
      if nd'.ref = 0 then
        match fs.fobj i with
        | none => (fs1, .panic)
        | some _ =>
          let fs2 := { fs1 with fobj := upd fs1.fobj i none }
          if nd'.link = 0 then
            match fs.disk i with
            | none => (fs2, .panic)
            | some _ => (((fs2.set i none).rmHost i).logIno i, .ok 0)
          else (fs2, .ok 0)
      else (fs1, .ok 0)
    | .dir =>
      if (fs.fobj i).isSome then (fs1, .err .ENOEXEC)
      else if nd'.link = 2 ∧ nd'.ref = 0 then ((fs1.set i none).logIno i, .ok 0)
      else (fs1, .ok 0)
    | .chr _ =>
      if (fs.fobj i).isSome then (fs1, .err .ENOEXEC)
      else if nd'.link = 0 ∧ nd'.ref = 0 then ((fs1.set i none).logIno i, .ok 0)
      else (fs1.logIno i, .ok 0)

/-! ## Name of a directory -/

/-- `filenamefrominode`, `/repo/src/safeposix/filesystem.rs` 510-527: the first entry in iteration
order (here list order) that leads to the inode. -/
def nameOf (es : List (Name × Nat)) (i : Nat) : Option Name :=
  match es with
  | [] => none
  | (n, j) :: es => if j = i then some n else nameOf es i

/-- `pathnamefrominodenum`, `/repo/src/safeposix/filesystem.rs` 463-507, with the
names collected in a list instead of a string (`normpath` drops the trailing slash).  `first` is
`first_iteration`.  The guard on the current inode is held while the parent is looked up in
the same `DashMap`, so for a directory that is its own parent (the root, first iteration)
the call never returns: `blocked`.  For two different inodes in one shard the same happens depending on the hash;
this is not modelled.  `fuel` bounds the number of steps up; running out of it is `blocked` too. -/
def pathOf (ino : Nat → Option Inode) : Nat → Nat → Bool → List Name → Ret × List Name
  | 0, _, _, _ => (.blocked, [])
  | fuel + 1, cur, first, acc =>
    match ino cur with
    | none => (.err .ENOTDIR, [])
    | some nd =>
      if nd.isDir then
        match entGet nd.ents dotdot with
        | none => (.err .ENOTDIR, [])
        | some par =>
          if par = rootIno ∧ !first then (.ok 0, acc)
          else if par = cur then (.blocked, [])
          else match ino par with
            | none => (.panic, [])
            | some pd =>
              if pd.isDir then
                match nameOf pd.ents cur with
                | none => (.err .ENOTDIR, [])
                | some n => pathOf ino fuel par (if par = rootIno then false else first) (n :: acc)
              else (.err .ENOTDIR, [])
      else (.err .ENOTDIR, [])

/-! ## A freshly formatted file system -/

/-- The name `dev`. -/
def nDev : Name := [100, 101, 118]
/-- The name `null`. -/
def nNull : Name := [110, 117, 108, 108]
/-- The name `zero`. -/
def nZero : Name := [122, 101, 114, 111]
/-- The name `urandom`. -/
def nUrandom : Name := [117, 114, 97, 110, 100, 111, 109]
/-- The name `random`. -/
def nRandom : Name := [114, 97, 110, 100, 111, 109]
/-- The name `tmp`. -/
def nTmp : Name := [116, 109, 112]

/-- `format_fs`, `/repo/src/safeposix/filesystem.rs` 192-308, on `blank_fs_init` 142-174.  The directory
meant to be `/tmp` (inode 7) is stored but not entered in the root directory, and its `.`
leads to inode 2. -/
def format : Fs where
  inodes := fun i => match i with
    | 1 => some { kind := .dir, mode := sIFDIR ||| sIRWXA, size := 0, link := 4, ref := 0,
                  ents := [(nDev, 2), (dot, 1), (dotdot, 1)] }
    | 2 => some { kind := .dir, mode := sIFDIR ||| 0o755#32, size := 0, link := 7, ref := 0,
                  ents := [(dotdot, 1), (dot, 2), (nNull, 3),
                    (nZero, 4), (nUrandom, 5),
                    (nRandom, 6)] }
    | 3 => some { kind := .chr (1, 3), mode := sIFCHR ||| 0o666#32, size := 0, link := 1, ref := 0,
                  ents := [] }
    | 4 => some { kind := .chr (1, 5), mode := sIFCHR ||| 0o666#32, size := 0, link := 1, ref := 0,
                  ents := [] }
    | 5 => some { kind := .chr (1, 9), mode := sIFCHR ||| 0o666#32, size := 0, link := 1, ref := 0,
                  ents := [] }
    | 6 => some { kind := .chr (1, 8), mode := sIFCHR ||| 0o666#32, size := 0, link := 1, ref := 0,
                  ents := [] }
    | 7 => some { kind := .dir, mode := sIFDIR ||| 0o755#32, size := 0, link := 7, ref := 0,
                  ents := [(dotdot, 1), (dot, 2)] }
    | _ => none
  next := 8
  fobj := fun _ => none
  disk := fun _ => none
  log := []
  dom := []

end Verif.Fs
