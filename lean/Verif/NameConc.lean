import Verif.Fs

/-!
# Path calls that run at the same time

`FS_METADATA.inodetable` is a concurrent map that every cage and thread uses without any other lock
(`/repo/src/safeposix/filesystem.rs` 141-150).  A call takes the lock of one inode at a time, so between two such sections any
other call may run.  Here each call of `Verif.Fs` is cut at these points: one step is one section
under one lock (or one atomic operation).  The threads are numbered; a schedule is any list of
actions.

Simplifications: locks are per inode (in `DashMap` they are per shard, so a real lock may exclude more);
a step never waits; waiting for ever (two calls that each want the other's shard) is the subject of `Locks`.  The walk
holds the lock of the inode it stands on while it takes the next one; here another call may
change that inode between two steps of the walk, which only adds schedules.  Paths are already
normalised.  A thread that panics ends the program (`dead`).  Sockets' names (`bind`) are in `UnixSock`.
-/

namespace Verif.NameConc
open Verif.Path Verif.Fs

/-- A path call with its normalised paths, or the end of one descriptor on inode `i` (`close`). -/
inductive Call
  | mkdir (p : List Name) (mode : BitVec 32)
  | mknod (p : List Name) (mode : BitVec 32) (dev : BitVec 64)
  | open (p : List Name) (flags mode : BitVec 32)
  | link (old new : List Name)
  | unlink (p : List Name)
  | rmdir (p : List Name)
  | rename (old new : List Name)
  | stat (p : List Name)
  | chmod (p : List Name) (mode : BitVec 32)
  | close (i : Nat)
  deriving DecidableEq, Repr

/-- What a call returns. -/
inductive Out
  | ret (r : Ret)
  | opened (i size : Nat)
  | stat (st : Stat)
  deriving DecidableEq, Repr

/-- What the walk is made for. -/
inductive Goal
  | mkdir (mode : BitVec 32)
  | mknod (mode : BitVec 32) (dev : BitVec 64)
  | open (flags mode : BitVec 32)
  | linkOld (new : List Name)
  /-- the second walk of link, with the inode whose count already went up -/
  | linkNew (i : Nat) (old : List Name)
  | unlink
  | rmdir
  | renameOld (new : List Name)
  /-- the second walk of rename -/
  | renameNew (i par : Nat) (old : List Name)
  | stat
  | chmod (mode : BitVec 32)
  deriving DecidableEq, Repr

/-- What is created. -/
inductive New
  | dir (mode : BitVec 32)
  | chr (mode : BitVec 32) (dev : BitVec 64)
  | file (mode : BitVec 32)
  deriving DecidableEq, Repr

/-- The inode that is created: `/repo/src/safeposix/syscalls/fs_calls.rs` 248-265 (open), 524-540 (mkdir), 682-694
(mknod). -/
def New.ino : New → Nat → Nat → Inode
  | .dir mode, par, num => { kind := .dir, mode := sIFDIR ||| mode, size := 0, link := 3, ref := 0,
                             ents := initEnts num par }
  | .chr mode dev, _, _ => { kind := .chr (DevNo.devtuple dev), mode := mode, size := 0, link := 1, ref := 0,
                             ents := [] }
  | .file mode, _, _ => newFile mode

/-- What follows after the log entries. -/
inductive After
  | ret (r : Ret)
  /-- open the host file of the new inode -/
  | openObj (p : List Name) (i : Nat)
  /-- rename's update of the table of socket paths -/
  | dom (old new : List Name)
  deriving DecidableEq, Repr

/-- What is left to do for a new inode: only open has a host file to make. -/
def New.rest : New → List Name → Nat → After
  | .file _, p, num => .openObj p num
  | _, _, _ => .ret (.ok 0)

/-- Where a thread is in its call. -/
inductive Pc
  | idle
  /-- `p` is the whole path, `rest` what is still to be walked, `cur` and `prev` are `inodeno` and
  `previnodeno` -/
  | walk (p rest : List Name) (cur prev : Option Nat) (g : Goal)
  | alloc (p : List Name) (par : Nat) (new : New)
  | enter (p : List Name) (par : Nat) (new : New) (num : Nat)
  | store (p : List Name) (par : Nat) (new : New) (num : Nat)
  | log (is : List Nat) (k : After)
  | logw (i : Nat) (rec : Option Inode) (is : List Nat) (k : After)
  | openObj (p : List Name) (i : Nat)
  | get (p : List Name) (i : Nat)
  | openGet (p : List Name) (i : Nat) (flags : BitVec 32)
  | chmodDo (p : List Name) (i : Nat) (mode : BitVec 32)
  | linkInc (old new : List Name) (i : Nat)
  | linkEnter (old new : List Name) (i par : Nat)
  | linkUndo (old : List Name) (i : Nat) (e : Errno)
  | unlinkDec (p : List Name) (i par : Nat)
  | unlinkRemove (p : List Name) (i par : Nat) (kind : Kind) (zero : Bool)
  | unlinkReap (p : List Name) (i par : Nat) (kind : Kind)
  | unlinkDom (p : List Name) (i par : Nat) (kind : Kind)
  | rmdirPar (p : List Name) (i par : Nat)
  | rmdirNode (p : List Name) (i par : Nat)
  | rmdirRemove (p : List Name) (i par : Nat) (rm : Bool)
  | rmdirReap (i par : Nat)
  | renameEdit (old new : List Name) (i par : Nat)
  | renameDom (old new : List Name)
  | closeDec (i : Nat)
  | closeReap (i : Nat) (kind : Kind)
  deriving DecidableEq, Repr

/-- The whole system.  `held i` is the number of descriptors, over all cages, that designate inode `i`;
`call` and `res` are the call a thread is in and what its last call returned. -/
structure State where
  fs : Fs
  held : Nat → Nat
  pc : Nat → Pc
  call : Nat → Option Call
  res : Nat → Option Out
  dead : Bool

/-- Everything at rest. -/
def init (fs : Fs) (held : Nat → Nat) : State :=
  { fs := fs, held := held, pc := fun _ => .idle, call := fun _ => none, res := fun _ => none, dead := false }

/-- Go on at another place, with another file system. -/
def State.to (s : State) (t : Nat) (fs : Fs) (p : Pc) : State := { s with fs := fs, pc := upd s.pc t p }

/-- The call returns. -/
def State.fin (s : State) (t : Nat) (fs : Fs) (o : Out) : State :=
  { s with fs := fs, pc := upd s.pc t .idle, call := upd s.call t none, res := upd s.res t (some o) }

/-- The call returns a descriptor. -/
def State.finOpen (s : State) (t : Nat) (fs : Fs) (i size : Nat) : State :=
  { s.fin t fs (.opened i size) with held := upd s.held i (s.held i + 1) }

/-- A panic. -/
def State.die (s : State) : State := { s with dead := true }

/-- First step of a call. -/
def begin : Call → Pc
  | .mkdir p mode => .walk p p (some rootIno) none (.mkdir mode)
  | .mknod p mode dev => .walk p p (some rootIno) none (.mknod mode dev)
  | .open p flags mode => .walk p p (some rootIno) none (.open flags mode)
  | .link old new => .walk old old (some rootIno) none (.linkOld new)
  | .unlink p => .walk p p (some rootIno) none .unlink
  | .rmdir p => .walk p p (some rootIno) none .rmdir
  | .rename old new => .walk old old (some rootIno) none (.renameOld new)
  | .stat p => .walk p p (some rootIno) none .stat
  | .chmod p mode => .walk p p (some rootIno) none (.chmod mode)
  | .close i => .closeDec i

/-- What the call does with the result of `metawalkandparent`, until its next lock.
`/repo/src/safeposix/syscalls/fs_calls.rs`: open 214-246, 314-330, 415-432; mkdir 492-512, 560-568; mknod 648-680; link
812-830, 868-880; unlink 984-995; rmdir 4740-4750; rename 4921-4940; stat 1177-1180; chmod 4245-4260. -/
def arrive (s : State) (t : Nat) (p : List Name) (r : Option Nat × Option Nat) : Goal → State
  | .mkdir mode =>
    match r with
    | (some _, _) => s.fin t s.fs (.ret (.err .EEXIST))
    | (none, none) => s.fin t s.fs (.ret (.err .ENOENT))
    | (none, some par) =>
      if !saneMode mode then s.fin t s.fs (.ret (.err .EPERM)) else s.to t s.fs (.alloc p par (.dir mode))
  | .mknod mode dev =>
    match r with
    | (some _, _) => s.fin t s.fs (.ret (.err .EEXIST))
    | (none, none) => s.fin t s.fs (.ret (.err .ENOENT))
    | (none, some par) =>
      if !saneMode mode then s.fin t s.fs (.ret (.err .EPERM))
      else if mode &&& sIFCHR = 0 then s.fin t s.fs (.ret (.err .EINVAL))
      else s.to t s.fs (.alloc p par (.chr mode dev))
  | .open flags mode =>
    match r with
    | (some i, _) => s.to t s.fs (.openGet p i flags)
    | (none, none) => s.fin t s.fs (.ret (.err .ENOENT))
    | (none, some par) =>
      if flags &&& oCREAT = 0 then s.fin t s.fs (.ret (.err .ENOENT))
      else if flags &&& sIFCHR = sIFCHR then s.fin t s.fs (.ret (.err .EINVAL))
      else if !saneMode mode then s.fin t s.fs (.ret (.err .EPERM))
      else s.to t s.fs (.alloc p par (.file mode))
  | .linkOld new =>
    match r with
    | (none, _) => s.fin t s.fs (.ret (.err .ENOENT))
    | (some i, _) => s.to t s.fs (.linkInc p new i)
  | .linkNew i old =>
    match r with
    | (some _, _) => s.to t s.fs (.linkUndo old i .EEXIST)
    | (none, none) => s.to t s.fs (.linkUndo old i .ENOENT)
    | (none, some par) => s.to t s.fs (.linkEnter old p i par)
  | .unlink =>
    match r with
    | (none, _) => s.fin t s.fs (.ret (.err .ENOENT))
    | (some _, none) => s.fin t s.fs (.ret (.err .EISDIR))
    | (some i, some par) => s.to t s.fs (.unlinkDec p i par)
  | .rmdir =>
    match r with
    | (none, _) => s.fin t s.fs (.ret (.err .ENOENT))
    | (some _, none) => s.fin t s.fs (.ret (.err .EBUSY))
    | (some i, some par) => s.to t s.fs (.rmdirPar p i par)
  | .renameOld new =>
    match r with
    | (none, _) => s.fin t s.fs (.ret (.err .EEXIST))
    | (some _, none) => s.fin t s.fs (.ret (.err .EBUSY))
    | (some i, some par) => s.to t s.fs (.walk new new (some rootIno) none (.renameNew i par p))
  | .renameNew i par old =>
    if r.2 ≠ some par then s.fin t s.fs (.ret (.err .EOPNOTSUPP)) else s.to t s.fs (.renameEdit old p i par)
  | .stat =>
    match r with
    | (none, _) => s.fin t s.fs (.ret (.err .ENOENT))
    | (some i, _) => s.to t s.fs (.get p i)
  | .chmod mode =>
    match r with
    | (none, _) => s.fin t s.fs (.ret (.err .ENOENT))
    | (some i, _) =>
      if mode &&& sIRWXA = mode then s.to t s.fs (.chmodDo p i mode) else s.fin t s.fs (.ret (.err .EINVAL))

/-- After the last log entry. -/
def resume (s : State) (t : Nat) (fs : Fs) : After → State
  | .ret r => s.fin t fs (.ret r)
  | .openObj p i => s.to t fs (.openObj p i)
  | .dom old new => s.to t fs (.renameDom old new)

/-- One section of the call that thread `t` is in.  The line numbers are those of
`/repo/src/safeposix/syscalls/fs_calls.rs` unless another file is named. -/
def go (s : State) (t : Nat) : State :=
  let fs := s.fs
  match s.pc t with
  | .idle => s
  -- `metawalkandparent`, filesystem.rs 537-583: one component
  | .walk p [] cur prev g => arrive s t p (cur, prev) g
  | .walk p (_ :: _) none _ g => arrive s t p (none, none) g
  | .walk p (n :: ns) (some i) _ g =>
    match fs.inodes i with
    | none => s.die
    | some nd =>
      if nd.isDir then s.to t fs (.walk p ns (entGet nd.ents n) (some i) g)
      else arrive s t p (none, none) g
  -- `nextinode.fetch_add`, 268-270, 519-521, 696-698
  | .alloc p par new => s.to t { fs with next := fs.next + 1 } (.enter p par new fs.next)
  -- the entry in the parent, 272-288, 540-554, 700-717 (that the parent is no directory
  -- cannot happen, as the walk goes through directories only and a number never changes its kind; the branches for it are
  -- modelled as a panic)
  | .enter p par new num =>
    match fs.inodes par, p.getLast? with
    | some pd, some name =>
      if pd.isDir then
        s.to t (fs.set par (some { pd with ents := entPut pd.ents name num, link := pd.link + 1 }))
          (.store p par new num)
      else s.die
    | _, _ => s.die
  -- `inodetable.insert(newinodenum, newinode)`, 291, 555, 719
  | .store p par new num =>
    s.to t (fs.set num (some (new.ino par num)))
      (.log [par, num] (new.rest p num))
  -- `log_metadata`, filesystem.rs 399-410: read and serialise the inode, then 412-415: append the bytes
  | .log [] k => resume s t fs k
  | .log (i :: is) k => s.to t fs (.logw i (fs.inodes i) is k)
  | .logw i rec is k => s.to t { fs with log := fs.log ++ [(i, rec)] } (.log is k)
  -- the host file of a new file, 300-311
  | .openObj _ i => s.finOpen t (fs.openObj i 0) i 0
  -- stat's `inodetable.get(&inodenum).unwrap()`, 1177-1199
  | .get _ i =>
    match fs.inodes i with
    | none => s.die
    | some nd => s.fin t fs (.stat (statOf i nd))
  -- open of an existing path, 333-409
  | .openGet _ i flags =>
    match fs.openExisting i flags with
    | (fs', .opened j size) => s.finOpen t fs' j size
    | (_, .failed .panic) => s.die
    | (fs', .failed r) => s.fin t fs' (.ret r)
  -- `_chmod_helper`, 4149-4188
  | .chmodDo _ i mode =>
    match fs.inodes i with
    | none => s.die
    | some nd =>
      s.to t (fs.set i (some { nd with mode := (nd.mode &&& ~~~sIRWXA) ||| mode }))
        (.log (if nd.isSock then [] else [i]) (.ret (.ok 0)))
  -- link: the count of the old file, 826-855
  | .linkInc old new i =>
    match fs.inodes i with
    | none => s.die
    | some nd =>
      if nd.isDir then s.fin t fs (.ret (.err .EPERM))
      else s.to t (fs.set i (some { nd with link := nd.link + 1 }))
        (.walk new new (some rootIno) none (.linkNew i old))
  -- link: the new entry, 872-894
  | .linkEnter _ new i par =>
    match fs.inodes par, new.getLast? with
    | some pd, some name =>
      if pd.isDir then
        s.to t (fs.set par (some { pd with ents := entPut pd.ents name i, link := pd.link + 1 }))
          (.log [par, i] (.ret (.ok 0)))
      else s.die
    | _, _ => s.die
  -- link: failed, take the count back, 904-925.  `linkcount` is unsigned; below zero is a panic
  -- (with overflow checks; without them it wraps)
  | .linkUndo _ i e =>
    match fs.inodes i with
    | none => s.die
    | some nd =>
      if nd.isDir ∨ nd.link = 0 then s.die
      else s.fin t (fs.set i (some { nd with link := nd.link - 1 })) (.ret (.err e))
  -- unlink: the count, 995-1029 (below zero is a panic as above)
  | .unlinkDec p i par =>
    match fs.inodes i with
    | none => s.die
    | some nd =>
      if nd.isDir then s.fin t fs (.ret (.err .EISDIR))
      else if nd.link = 0 then s.die
      else s.to t (fs.set i (some { nd with link := nd.link - 1 }))
        (.unlinkRemove p i par nd.kind (decide (nd.link - 1 = 0 ∧ nd.ref = 0)))
  -- unlink: `remove_from_parent_dir`, 1034-1037, 4664-4693
  | .unlinkRemove p i par kind zero =>
    match fs.removeFromParent par p with
    | (fs', .ok _) => s.to t fs' (if zero then .unlinkReap p i par kind else .unlinkDom p i par kind)
    | (_, .panic) => s.die
    | (fs', r) => s.fin t fs' (.ret r)
  -- unlink: remove the inode and the host file, 1045-1063 (two locks, here one step: no other call
  -- can reach the inode or its host file any more, or it is already going to panic)
  | .unlinkReap p i par kind =>
    if kind = .file then
      match fs.disk i with
      | none => s.die
      | some _ => s.to t ((fs.set i none).rmHost i) (.unlinkDom p i par kind)
    else s.to t (fs.set i none) (.unlinkDom p i par kind)
  -- unlink: the table of socket paths, 1065-1071
  | .unlinkDom p i par kind =>
    s.to t { fs with dom := fs.dom.filter (· ≠ p) }
      (.log (if kind = .sock then [] else [par, i]) (.ret (.ok 0)))
  -- rmdir: permission of the parent, 4749-4760
  | .rmdirPar p i par =>
    match fs.inodes par with
    | none => s.die
    | some pd =>
      if pd.isDir ∧ pd.mode &&& sIWALL = 0 then s.fin t fs (.ret (.err .EPERM))
      else s.to t fs (.rmdirNode p i par)
  -- rmdir: the directory itself, 4763-4832
  | .rmdirNode p i par =>
    match fs.inodes i with
    | none => s.die
    | some nd =>
      if nd.isDir then
        if nd.link > 3 then s.fin t fs (.ret (.err .ENOTEMPTY))
        else if !modeIsDir nd.mode then s.die
        else if nd.mode &&& sIWALL = 0 then s.fin t fs (.ret (.err .EPERM))
        else s.to t (if nd.ref = 0 then fs.set i (some { nd with link := 2 }) else fs)
          (.rmdirRemove p i par (decide (nd.ref = 0)))
      else s.fin t fs (.ret (.err .ENOTDIR))
  -- rmdir: `remove_from_parent_dir`, 4842-4846
  | .rmdirRemove p i par rm =>
    match fs.removeFromParent par p with
    | (fs', .ok _) => s.to t fs' (if rm then .rmdirReap i par else .log [par, i] (.ret (.ok 0)))
    | (_, .panic) => s.die
    | (fs', r) => s.fin t fs' (.ret r)
  -- rmdir: `inodetable.remove(&inodenum).unwrap()`, 4850-4852
  | .rmdirReap i par =>
    match fs.inodes i with
    | none => s.die
    | some _ => s.to t (fs.set i none) (.log [par, i] (.ret (.ok 0)))
  -- rename: both entries under the lock of the parent, 4938-4966
  | .renameEdit old new i par =>
    match fs.inodes par, old.getLast?, new.getLast? with
    | some pd, some o, some n =>
      if pd.isDir then
        s.to t (fs.set par (some { pd with ents := entDel (entPut pd.ents n i) o })) (.log [par] (.dom old new))
      else s.to t fs (.renameDom old new)
    | _, _, _ => s.die
  -- rename: the table of socket paths, 4968-4969
  | .renameDom old new =>
    s.fin t { fs with dom := (new :: fs.dom).filter (· ≠ old) } (.ret (.ok 0))
  -- close: the counts under the lock of the inode, 3673-3781
  | .closeDec i =>
    match fs.inodes i with
    | none => s.die
    | some nd =>
      let fs1 := fs.set i (some { nd with ref := nd.ref - 1 })
      match nd.kind with
      | .sock => s.die
      | .file =>
        if nd.ref - 1 = 0 then
          match fs.fobj i with
          | none => s.die
          | some _ =>
            let fs2 := { fs1 with fobj := upd fs1.fobj i none }
            if nd.link = 0 then s.to t fs2 (.closeReap i nd.kind) else s.fin t fs2 (.ret (.ok 0))
        else s.fin t fs1 (.ret (.ok 0))
      | .dir =>
        if (fs.fobj i).isSome then s.fin t fs1 (.ret (.err .ENOEXEC))
        else if nd.link = 2 ∧ nd.ref - 1 = 0 then s.to t fs1 (.closeReap i nd.kind)
        else s.fin t fs1 (.ret (.ok 0))
      | .chr _ =>
        if (fs.fobj i).isSome then s.fin t fs1 (.ret (.err .ENOEXEC))
        else if nd.link = 0 ∧ nd.ref - 1 = 0 then s.to t fs1 (.closeReap i nd.kind)
        else s.to t fs1 (.log [i] (.ret (.ok 0)))
  -- close: remove the inode and the host file, 3703-3708, 3745, 3768
  | .closeReap i kind =>
    if kind = .file then
      match fs.disk i with
      | none => s.die
      | some _ => s.to t ((fs.set i none).rmHost i) (.log [i] (.ret (.ok 0)))
    else s.to t (fs.set i none) (.log [i] (.ret (.ok 0)))

/-- A thread begins a call, or goes on with it. -/
inductive Act
  | start (t : Nat) (c : Call)
  | go (t : Nat)
  deriving DecidableEq, Repr

/-- A call begins.  From here on `close` counts as having given its descriptor up, `/repo/src/safeposix/syscalls/fs_calls.rs`
3560-3565, 3595-3672 (the table of descriptors, and several threads closing one descriptor, are in `FdConc`). -/
def State.begin (s : State) (t : Nat) (c : Call) : State :=
  { s with
    pc := upd s.pc t (NameConc.begin c)
    call := upd s.call t (some c)
    held := match c with
      | .close i => upd s.held i (s.held i - 1)
      | _ => s.held }

/-- One action.  A thread that is in a call cannot begin another one; `link` panics at once if the new path has no
last component (`file_name().unwrap()`, 802-807). -/
def step (s : State) (a : Act) : State :=
  if s.dead then s
  else match a with
    | .start t c =>
      if s.pc t = .idle then
        match c with
        | .link _ [] => s.die
        | _ => s.begin t c
      else s
    | .go t => go s t

/-- A schedule. -/
def run (s : State) : List Act → State
  | [] => s
  | a :: as => run (step s a) as

end Verif.NameConc
