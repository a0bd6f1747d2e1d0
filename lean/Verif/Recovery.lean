import Verif.Kernel

/-!
# Model of starting and stopping: the metadata file, the log, recovery, shutdown

`/repo/src/safeposix/filesystem.rs` 142-433, 617-646, `/repo/src/safeposix/dispatcher.rs` 988-1007, 1037-1117,
`/repo/src/interface/misc.rs` 98-112.

The bytes of the log are in `LogFile`; here the log is the list of its entries, and the metadata file is missing, cut short, or a whole
snapshot.

Host files that no inode designates (left behind when a file without a name is lost in a crash) are dropped at the next start
here; the code leaves them, but gives their numbers to no later file.
-/

namespace Verif.Recovery
open Verif.Path Verif.Fs Verif.Kernel

/-- An inode as it is stored: the reference count is `#[serde(skip)]` and reads back as 0; `/repo/src/safeposix/filesystem.rs` 53-122. -/
def clean (nd : Inode) : Inode := { nd with ref := 0 }

/-- `FilesystemMetadata` as it is stored, `/repo/src/safeposix/filesystem.rs` 124-129. -/
structure Snap where
  inodes : Nat → Option Inode
  next : Nat

/-- Entries of the log. -/
abbrev Log := List (Nat × Option Inode)

/-- The loop of `load_fs` over the entries, `/repo/src/safeposix/filesystem.rs` 344-355. -/
def replay (m : Nat → Option Inode) (l : Log) : Nat → Option Inode :=
  l.foldl (fun m e => upd m e.1 (e.2.map clean)) m

/-- `max_inodenum` after the loop, `/repo/src/safeposix/filesystem.rs` 341-350. -/
def maxNum (n : Nat) (l : Log) : Nat :=
  l.foldl (fun n e => match e.2 with | some _ => max n e.1 | none => n) n

/-- The predicate of `fsck`, `/repo/src/safeposix/filesystem.rs` 377-389. -/
def keeps (nd : Inode) : Bool :=
  match nd.kind with
  | .file => nd.link != 0
  | .dir => decide (2 < nd.link)
  | .chr _ => nd.link != 0
  | .sock => false

/-- `fsck`, `/repo/src/safeposix/filesystem.rs` 377-389. -/
def fsck (m : Nat → Option Inode) : Nat → Option Inode := fun i =>
  match m i with
  | none => none
  | some nd => if keeps nd then some nd else none

/-- What `load_fs` makes of a snapshot and a log, `/repo/src/safeposix/filesystem.rs` 310-366. -/
def recover (b : Snap) (l : Log) : Snap := { inodes := fsck (replay b.inodes l), next := maxNum b.next l + 1 }

/-- The file system that starts from this metadata: nothing is open, the log is new, and of the host files only those that
an inode designates count. -/
def start (b : Snap) (disk : Nat → Option (List UInt8)) : Fs where
  inodes := b.inodes
  next := b.next
  fobj := fun _ => none
  disk := fun i => match b.inodes i with | some nd => if nd.isFile then disk i else none | none => none
  log := []
  dom := []

/-- What `persist_metadata` writes, `/repo/src/safeposix/filesystem.rs` 419-433. -/
def snapOf (fs : Fs) : Snap := { inodes := fun i => (fs.inodes i).map clean, next := fs.next }

/-! ## Files of the host -/

/-- The metadata file. -/
inductive Meta
  | missing
  /-- not completely written -/
  | torn
  | whole (b : Snap)

/-- What survives the process: the metadata file, the log file, the host files. -/
structure Disk where
  snap : Meta
  log : Option Log
  files : Nat → Option (List UInt8)

/-- `load_fs`, `/repo/src/safeposix/filesystem.rs` 310-375 with `init_fs_metadata` 176-188 and `format_fs` 192-308: the file system
in memory.  `none` is a panic (the snapshot cannot be read). -/
def load (d : Disk) : Option Fs :=
  match d.snap, d.log with
  | .torn, _ => none
  | .missing, _ => some (start (snapOf format) d.files)
  | .whole b, none => some (start b d.files)
  | .whole b, some l => some (start (recover b l) d.files)

/-- The files as `load_fs` changes them, in this order: the log is removed once it has been replayed (the snapshot is not written
again); without a snapshot the log is removed and a new snapshot written; last, a new log is created. -/
def loadDisks (d : Disk) : List Disk :=
  match d.snap with
  | .torn => [d]
  | .missing =>
    [d, { d with log := none }, { d with snap := .torn, log := none },
      { d with snap := .whole (snapOf format), log := none }, { d with snap := .whole (snapOf format), log := some [] }]
  | .whole _ => [d, { d with log := none }, { d with log := some [] }]

/-- The files as `persist_metadata` and the removal of the log change them, `/repo/src/safeposix/dispatcher.rs` 1107-1116,
`/repo/src/safeposix/filesystem.rs` 419-433. -/
def stopDisks (d : Disk) (b : Snap) : List Disk :=
  [d, { d with snap := .missing }, { d with snap := .torn }, { d with snap := .whole b }, { d with snap := .whole b, log := none }]

/-- What is on disk while the system runs that was started from the metadata file `b`. -/
def diskOf (b : Snap) (fs : Fs) : Disk := { snap := .whole b, log := some fs.log, files := fs.disk }

/-! ## Shutdown -/

/-- `remove_domain_sock`, `/repo/src/safeposix/filesystem.rs` 617-636.  The inode is removed whatever it is and however many names it has; a
failure of `remove_from_parent_dir` is ignored. -/
def removeDom (fs : Fs) (p : List Name) : Fs × Ret :=
  match fs.walk p with
  | none => (fs, .panic)
  | some (none, _) => (fs, .panic)
  | some (some _, none) => (fs, .panic)
  | some (some i, some par) =>
    match fs.removeFromParent par p with
    | (fs1, .panic) => (fs1, .panic)
    | (fs1, _) => ({ (fs1.set i none) with dom := fs1.dom.filter (· ≠ p) }, .ok 0)

/-- The first loop of `lindrustfinalize`, `/repo/src/safeposix/dispatcher.rs` 1098-1101. -/
def removeDoms (fs : Fs) : List (List Name) → Fs × Ret
  | [] => (fs, .ok 0)
  | p :: ps =>
    match removeDom fs p with
    | (fs1, .panic) => (fs1, .panic)
    | (fs1, _) => removeDoms fs1 ps

/-- `cagetable_clear`, `/repo/src/interface/misc.rs` 98-112: every cage exits, in the order of the numbers. -/
def exitAll : Nat → State → State × Ret
  | 0, s => (s, .ok 0)
  | k + 1, s =>
    match exitAll k s with
    | (s1, .panic) => (s1, .panic)
    | (s1, _) =>
      match s1.cages k with
      | none => (s1, .ok 0)
      | some _ => ((step s1 k (.exit 0)).1, (step s1 k (.exit 0)).2.ret)

/-- `lindrustfinalize` up to `persist_metadata`, `/repo/src/safeposix/dispatcher.rs` 1096-1106, without `cleartmp`, which is a
history of calls of cage 0 between its two parts (see `Reach`). -/
def finalize (s : State) : State × Ret :=
  match removeDoms s.fs s.fs.dom with
  | (fs, .panic) => ({ s with fs := fs }, .panic)
  | (fs, _) => exitAll maxCage { s with fs := fs }

end Verif.Recovery
