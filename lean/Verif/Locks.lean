/-!
# Waiting for locks

Which locks the calls on files take, in which order, and what a thread does that cannot get one.  `FS_METADATA.inodetable` and
`FILEOBJECTTABLE` are `DashMap`s (`/repo/src/safeposix/filesystem.rs` 31-45 and 128, `/repo/src/interface/misc.rs` 8): a reference into such a map
holds the lock of the shard the key falls into, for reading (`get`) or writing (`get_mut`, `entry`, `insert`, `remove`), until it is
dropped.  The shard depends on a hash with random keys, so the hash is a parameter here.  The slots of the descriptor tables, the working
directory of a cage and the log are `parking_lot` locks (`/repo/src/safeposix/cage.rs` 60-110): a writer that waits keeps new readers out.  Whether
that is so for a shard depends on the version of `dashmap` (`/repo/Cargo.toml` 24 names any 5.x), so it is a parameter too.

Only the locks are modelled, not the data: a call is the list of what it takes and gives back, for any inodes it may meet on its way.
Simplifications: `domsock_paths` is one lock; the maps inside directories are left out (they are touched only under the lock of their inode,
and changed only when that is held for writing); sockets, pipes, `dup2` (see `FdConc`), and the locks on the table of cages, on shared
memory and on the tables of mutexes, condition variables and semaphores are left out.
-/

namespace Verif.Locks

/-- A lock: a slot of a cage's descriptor table, a cage's working directory, a shard of the inode table, a shard of the table of host
files, the table of socket paths, the log. -/
inductive Lk
  | slot (c n : Nat)
  | cwd (c : Nat)
  | ino (s : Nat)
  | obj (s : Nat)
  | dom
  | log
  deriving DecidableEq, Repr

/-- For reading or for writing. -/
inductive Mode
  | r
  | w
  deriving DecidableEq, Repr

/-- One thing a call does. -/
inductive Instr
  /-- take a lock, waiting for it -/
  | acq (l : Lk) (m : Mode)
  /-- give it back -/
  | rel (l : Lk) (m : Mode)
  /-- `try_write`: take the lock for writing or go without -/
  | tryw (l : Lk)
  /-- a place where the call may return (all its guards are dropped) -/
  | opt
  deriving DecidableEq, Repr

/-- A thread: what is left of its call, the locks it has, and whether it is known to wait for writing. -/
structure Thr where
  todo : List Instr
  held : List (Lk × Mode)
  queued : Bool
  deriving DecidableEq, Repr

/-- Into which shard of its table an inode number falls. -/
structure Hash where
  ino : Nat → Nat
  obj : Nat → Nat

/-! ## What the calls take -/

/-- Take a lock, do something, give it back. -/
def sec (l : Lk) (m : Mode) (body : List Instr) : List Instr := .acq l m :: (body ++ [.rel l m])

/-- The shard of inode `i`. -/
def Hash.at (h : Hash) (i : Nat) : Lk := .ino (h.ino i)

/-- The shard of the host file of inode `i`. -/
def Hash.file (h : Hash) (i : Nat) : Lk := .obj (h.obj i)

/-- A path as the walk meets it: whether it is relative, and the inodes looked up after the root. -/
structure Path where
  rel : Bool
  chain : List Nat
  deriving Repr

/-- `normpath`, `/repo/src/safeposix/filesystem.rs` 589-613: only a relative path needs the working directory. -/
def norm (c : Nat) (p : Path) : List Instr := if p.rel then sec (.cwd c) .r [] else []

/-- The rest of a walk that has the lock of `cur`.  `metawalkandparent`, `/repo/src/safeposix/filesystem.rs` 531-584: the next reference is
fetched (557) while the last one is still there (545).  An inode that is gone gives no reference; here it is given back with the
next step. -/
def walkFrom (h : Hash) (cur : Nat) : List Nat → List Instr
  | [] => [.rel (h.at cur) .r]
  | n :: ns => .acq (h.at n) .r :: .rel (h.at cur) .r :: walkFrom h n ns

/-- `metawalkandparent`, `/repo/src/safeposix/filesystem.rs` 531-584. -/
def walk (h : Hash) (ns : List Nat) : List Instr := .acq (h.at 1) .r :: walkFrom h 1 ns

/-- `normpath` and `metawalkandparent`. -/
def find (h : Hash) (c : Nat) (p : Path) : List Instr := norm c p ++ walk h p.chain

/-- `log_metadata`, `/repo/src/safeposix/filesystem.rs` 399-416. -/
def note (h : Hash) (i : Nat) : List Instr := sec (h.at i) .r [] ++ sec .log .w []

/-- `remove_from_parent_dir`, `/repo/src/safeposix/syscalls/fs_calls.rs` 4664-4694. -/
def leave (h : Hash) (par : Nat) : List Instr := sec (h.at par) .w [.opt]

/-- `pathnamefrominodenum`, `/repo/src/safeposix/filesystem.rs` 463-507, with `filenamefrominode` 510-527: the reference to the inode
(469, for writing) is there while its parent is looked up (511); `ups` are the parents met. -/
def up (h : Hash) (cur : Nat) : List Nat → List Instr
  | [] => sec (h.at cur) .w [.opt]
  | par :: ups => sec (h.at cur) .w (.opt :: sec (h.at par) .r [.opt]) ++ up h par ups

/-- One descriptor on a file, closed: `_close_helper_inner` and `_close_helper`, `/repo/src/safeposix/syscalls/fs_calls.rs` 3592-3850.
`o`: how the table of host files is used (3691, 3722, 3754); `gone`: the inode goes with it; otherwise devices are logged (3772). -/
def shut (h : Hash) (c n i : Nat) (o : Option Mode) (gone logs : Bool) : List Instr :=
  sec (.slot c n) .w
    (.opt :: sec (h.at i) .w (match o with | none => [] | some m => sec (h.file i) m []) ++
     (if gone then sec (h.at i) .w [] else []) ++ (if logs then note h i else [])) ++
  sec (.slot c n) .w []

/-- A call with the inodes it meets. -/
inductive Call
  /-- `stat`, `access`, `statfs` -/
  | stat (c : Nat) (p : Path) (i : Nat)
  | chmod (c : Nat) (p : Path) (i : Nat)
  /-- `mkdir`, `mknod`: `new` in `par` -/
  | mkdir (c : Nat) (p : Path) (par new : Nat)
  /-- `open` that makes the file -/
  | create (c n : Nat) (p : Path) (par new : Nat)
  /-- `open` of a file that is there; `file`: a regular one -/
  | openOld (c n : Nat) (p : Path) (i : Nat) (file trunc : Bool)
  /-- `ok`: the new name can be made -/
  | link (c : Nat) (p : Path) (i : Nat) (q : Path) (par : Nat) (ok : Bool)
  | unlink (c : Nat) (p : Path) (i par : Nat) (gone : Bool)
  | rmdir (c : Nat) (p : Path) (i par : Nat) (gone : Bool)
  | rename (c : Nat) (p q : Path) (par : Nat)
  | truncate (c : Nat) (p : Path) (i : Nat)
  | chdir (c : Nat) (p : Path) (i : Nat)
  | getcwd (c : Nat)
  /-- `fstat`, `fstatfs` (reading), `lseek`, `getdents` (writing) -/
  | look (c n i : Nat) (m : Mode)
  /-- `read`, `pread`, `mmap`, `fsync`, `fdatasync`, `sync_file_range` -/
  | read (c n i : Nat)
  /-- `write`, `pwrite`, `writev`; `grows`: the file gets longer -/
  | write (c n i : Nat) (grows : Bool)
  | ftruncate (c n i : Nat)
  | fchmod (c n i : Nat)
  /-- `dup`, `fcntl(F_DUPFD)`: the new descriptor `n'` -/
  | dup (c n n' i : Nat)
  | close (c n i : Nat) (o : Option Mode) (gone logs : Bool)
  /-- `exit`: the descriptors on files, with their inodes -/
  | exit (c : Nat) (fds : List (Nat × Nat × Option Mode × Bool × Bool))
  /-- `ups`: the parents met on the way up -/
  | fchdir (c n i : Nat) (ups : List Nat)
  /-- `fds`: the descriptors on files, with their inodes; `chain`, `i`: the way to the working directory, and its inode -/
  | fork (c : Nat) (fds : List (Nat × Nat)) (chain : List Nat) (i : Nat)

/-- What a call takes and gives back. -/
def prog (h : Hash) : Call → List Instr
  /- `/repo/src/safeposix/syscalls/fs_calls.rs` 1168-1230 (stat), 1416-1434 (statfs), 3019-3070 (access) -/
  | .stat c p i => find h c p ++ .opt :: sec (h.at i) .r []
  /- `/repo/src/safeposix/syscalls/fs_calls.rs` 4142-4199 and 4240-4262; sockets are not logged -/
  | .chmod c p i => find h c p ++ .opt :: sec (h.at i) .w [] ++ .opt :: note h i
  /- `/repo/src/safeposix/syscalls/fs_calls.rs` 480-572 (mkdir), 640-735 (mknod) -/
  | .mkdir c p par new => find h c p ++ .opt :: sec (h.at par) .w [] ++ sec (h.at new) .w [] ++ note h par ++ note h new
  /- `/repo/src/safeposix/syscalls/fs_calls.rs` 184-313; `get_next_fd`, `/repo/src/safeposix/cage.rs` 127-159: a slot that somebody holds is passed
  over; here such a call is one that looked at the next slot first -/
  | .create c n p par new =>
    norm c p ++ .tryw (.slot c n) :: (walk h p.chain ++ .opt :: sec (h.at par) .w [.opt] ++ sec (h.at new) .w [] ++
      note h par ++ note h new ++ sec (h.file new) .w []) ++ [.rel (.slot c n) .w]
  /- `/repo/src/safeposix/syscalls/fs_calls.rs` 184-216, 316-412 -/
  | .openOld c n p i file trunc =>
    norm c p ++ .tryw (.slot c n) :: (walk h p.chain ++ .opt :: sec (h.at i) .w
      (.opt :: (if file then (if trunc then sec (h.file i) .w [] else []) ++ sec (h.file i) .w [] else []))) ++ [.rel (.slot c n) .w]
  /- `/repo/src/safeposix/syscalls/fs_calls.rs` 780-930 -/
  | .link c p i q par ok =>
    norm c p ++ norm c q ++ walk h p.chain ++ .opt :: sec (h.at i) .w [.opt] ++ walk h q.chain ++
      (if ok then sec (h.at par) .w [] ++ note h par ++ note h i else sec (h.at i) .w [])
  /- `/repo/src/safeposix/syscalls/fs_calls.rs` 969-1074; a socket is not logged -/
  | .unlink c p i par gone =>
    find h c p ++ .opt :: sec (h.at i) .w [.opt] ++ leave h par ++ (if gone then sec (h.at i) .w [] else []) ++
      sec .dom .w [] ++ .opt :: note h par ++ note h i
  /- `/repo/src/safeposix/syscalls/fs_calls.rs` 4730-4865 -/
  | .rmdir c p i par gone =>
    find h c p ++ .opt :: sec (h.at par) .w [.opt] ++ sec (h.at i) .w [.opt] ++ leave h par ++
      (if gone then sec (h.at i) .w [] else []) ++ note h par ++ note h i
  /- `/repo/src/safeposix/syscalls/fs_calls.rs` 4896-4970 -/
  | .rename c p q par =>
    norm c p ++ norm c q ++ walk h p.chain ++ .opt :: walk h q.chain ++ .opt :: sec (h.at par) .w [] ++ note h par ++
      sec .dom .w [] ++ sec .dom .w []
  /- `_truncate_helper`, `/repo/src/safeposix/syscalls/fs_calls.rs` 4975-5055 and 5262-5275 -/
  | .truncate c p i => find h c p ++ .opt :: sec (h.at i) .w (.opt :: sec (h.file i) .w []) ++ note h i
  /- `/repo/src/safeposix/syscalls/fs_calls.rs` 3193-3231 -/
  | .chdir c p i => find h c p ++ .opt :: sec (h.at i) .w (.opt :: sec (.cwd c) .w [])
  /- `/repo/src/safeposix/syscalls/fs_calls.rs` 5571-5602 -/
  | .getcwd c => .opt :: sec (.cwd c) .r []
  /- `/repo/src/safeposix/syscalls/fs_calls.rs` 1311-1381 (fstat), 1467-1530 (fstatfs), 2830-2976 (lseek), 5422-5533 (getdents) -/
  | .look c n i m => sec (.slot c n) m (.opt :: sec (h.at i) .r [])
  /- `/repo/src/safeposix/syscalls/fs_calls.rs` 1580-1665 (read), 1790-1870 (pread), 4400-4510 (mmap), 5058-5215 (the syncs) -/
  | .read c n i => sec (.slot c n) .w (.opt :: sec (h.at i) .r (.opt :: sec (h.file i) .r []))
  /- `/repo/src/safeposix/syscalls/fs_calls.rs` 2010-2130 (write), 2245-2375 (pwrite), 2515-2735 (writev): the reference to the inode is dropped
  before that to the host file -/
  | .write c n i grows => sec (.slot c n) .w
      (.opt :: .acq (h.at i) .w :: .opt :: .acq (h.file i) .w :: .rel (h.at i) .w :: .rel (h.file i) .w ::
        (if grows then note h i else []))
  /- `/repo/src/safeposix/syscalls/fs_calls.rs` 5218-5260, 4975-5055 -/
  | .ftruncate c n i => sec (.slot c n) .r (.opt :: sec (h.at i) .w (.opt :: sec (h.file i) .w []) ++ note h i)
  /- `/repo/src/safeposix/syscalls/fs_calls.rs` 4299-4346, 4142-4199 -/
  | .fchmod c n i => sec (.slot c n) .r (.opt :: sec (h.at i) .w [] ++ note h i)
  /- `/repo/src/safeposix/syscalls/fs_calls.rs` 3285-3330, 3410-3530 -/
  | .dup c n n' i => sec (.slot c n) .w (.opt :: .tryw (.slot c n') :: sec (h.at i) .w [] ++ [.rel (.slot c n') .w])
  | .close c n i o gone logs => shut h c n i o gone logs
  /- `/repo/src/safeposix/syscalls/sys_calls.rs` 533-590: `_close_helper` on all descriptors -/
  | .exit c fds => fds.flatMap fun x => shut h c x.1 x.2.1 x.2.2.1 x.2.2.2.1 x.2.2.2.2
  /- `/repo/src/safeposix/syscalls/fs_calls.rs` 3113-3159; the path found is absolute, so `normpath` does not ask for the working directory -/
  | .fchdir c n i ups => sec (.slot c n) .r (.opt :: up h i ups ++ sec (.cwd c) .w [])
  /- `/repo/src/safeposix/syscalls/sys_calls.rs` 205-350: `cwd_container` (287) lives to the end of the function, also while the working
  directory is read a second time (349) -/
  | .fork c fds chain i =>
    (fds.flatMap fun x => sec (.slot c x.1) .r (sec (h.at x.2) .w [])) ++
      sec (.cwd c) .r (walk h chain ++ sec (h.at i) .w [] ++ sec (.cwd c) .r [])

/-! ## Threads -/

/-- Whether a writer that waits keeps new readers out; `fair`: whether it does so for the shards of a `DashMap`. -/
def fairOn (fair : Bool) : Lk → Bool
  | .ino _ | .obj _ | .dom => fair
  | _ => true

/-- Whether a thread is known to wait for `l` for writing. -/
def Thr.waits (t : Thr) (l : Lk) : Bool := t.queued && t.todo.head? == some (.acq l .w)

/-- Whether a lock can be had now.  It makes no difference who has it: a thread that has a lock for writing waits for itself. -/
def free (fair : Bool) (s : List Thr) (l : Lk) : Mode → Bool
  | .w => s.all fun t => t.held.all fun x => x.1 != l
  | .r => s.all fun t => !t.held.contains (l, .w) && !(fairOn fair l && t.waits l)

/-- What can happen. -/
inductive Act
  /-- a thread that is in no call makes one -/
  | call (t : Nat) (c : Call)
  /-- it does the next thing -/
  | go (t : Nat)
  /-- it returns, at a place where it may -/
  | quit (t : Nat)
  /-- a thread that wants to write and cannot is put in the queue of the lock -/
  | queue (t : Nat)

/-- A thread that is in no call. -/
def idle : Thr := { todo := [], held := [], queued := false }

/-- The next thing a thread does. -/
def Thr.go (fair : Bool) (s : List Thr) (t : Thr) : Option Thr :=
  match t.todo with
  | [] => none
  | .acq l m :: is => if free fair s l m then some { todo := is, held := (l, m) :: t.held, queued := false } else none
  | .rel l m :: is => some { t with todo := is, held := t.held.erase (l, m) }
  | .tryw l :: is =>
    if free fair s l .w then some { t with todo := is, held := (l, .w) :: t.held } else some idle
  | .opt :: is => some { t with todo := is }

/-- One step; `none` if it cannot take place now. -/
def step (h : Hash) (fair : Bool) (s : List Thr) : Act → Option (List Thr)
  | .call t c =>
    match s[t]? with
    | some x => if x.todo = [] then some (s.set t { idle with todo := prog h c }) else none
    | none => none
  | .go t =>
    match s[t]? with
    | some x => (x.go fair s).map (s.set t)
    | none => none
  | .quit t =>
    match s[t]? with
    | some x => if x.todo.head? = some .opt then some (s.set t idle) else none
    | none => none
  | .queue t =>
    match s[t]? with
    | some x =>
      match x.todo with
      | .acq l .w :: _ => if x.queued || free fair s l .w then none else some (s.set t { x with queued := true })
      | _ => none
    | none => none

/-- A run; what cannot take place is passed over. -/
def runFrom (h : Hash) (fair : Bool) (s : List Thr) : List Act → List Thr
  | [] => s
  | a :: l => runFrom h fair ((step h fair s a).getD s) l

/-- `N` threads, in no call. -/
def init (N : Nat) : List Thr := List.replicate N idle

end Verif.Locks
