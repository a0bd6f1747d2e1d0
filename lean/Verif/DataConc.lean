import Verif.Kernel

/-!
# Concurrent calls on open files

Model of `read`, `pread`, `write`, `pwrite`, `writev`, `lseek`, `ftruncate`, `fstat`, `fchmod` and `getdents` made by any number of
threads at once, lock by lock and effect by effect.  Each call takes the lock of its descriptor (`checkedfd.write()`, or
`checkedfd.read()` in ftruncate, fstat and fchmod), looks at it, takes the lock of the inode (`inodetable.get` or `get_mut`), changes
file, descriptor and inode one after the other, drops the inode, logs it, drops the descriptor and returns:
`/repo/src/safeposix/syscalls/fs_calls.rs` 1311-1381 (fstat), 1580-1742 (read), 1791-1893 (pread), 2009-2198 (write),
2244-2383 (pwrite), 2513-2779 (writev), 2829-2979 (lseek), 4142-4198 and 4299-4346 (fchmod), 4975-5055 and 5223-5253 (ftruncate),
5422-5533 (getdents), and `log_metadata`, `/repo/src/safeposix/filesystem.rs` 399-416.

The shared memory is that of the sequential model, `Kernel.State`.  Simplifications: the lock of a DashMap shard is the lock of the
one inode; the file object table is only used under the inode's lock and has none of its own; a lock that is free may be taken by any
thread.  Calls on pipes and sockets are not modelled here: `look` does not go on with them.
-/

namespace Verif.DataConc

open Verif.Fs Verif.Kernel

/-- The calls, without the descriptor. -/
inductive Call
  | read (n : Nat)
  | pread (n : Nat) (off : Int)
  | write (data : List UInt8)
  | pwrite (data : List UInt8) (off : Int)
  | writev (iovs : List (List UInt8))
  | lseek (off whence : Int)
  | ftruncate (len : Int)
  | fstat
  | fchmod (mode : BitVec 32)
  | getdents (bufsize : Nat)
  deriving DecidableEq, Repr

/-- The call as a call of the sequential model. -/
def Call.op (fd : Nat) : Call → Op
  | .read n => .read fd n
  | .pread n off => .pread fd n off
  | .write data => .write fd data
  | .pwrite data off => .pwrite fd data off
  | .writev iovs => .writev fd iovs
  | .lseek off whence => .lseek fd off whence
  | .ftruncate len => .ftruncate fd len
  | .fstat => .fstat fd
  | .fchmod mode => .fchmod fd mode
  | .getdents n => .getdents fd n

/-- Whether the descriptor is locked for writing: lines 1317, 1584, 1795, 2016, 2251, 2520, 2836, 4305, 5225, 5438. -/
def Call.slotEx : Call → Bool
  | .ftruncate _ | .fstat | .fchmod _ => false
  | _ => true

/-- Whether the inode is locked for writing (`get_mut`): lines 1608, 1819, 2047, 2300, 2682, 2874, 4151, 4979, 5444. -/
def Call.inoEx : Call → Bool
  | .write _ | .pwrite _ _ | .writev _ | .ftruncate _ | .fchmod _ => true
  | _ => false

/-- What an inode number stands for: the inode, the open file object (its recorded size) and the bytes. -/
structure File where
  ino : Option Inode
  fobj : Option Nat
  disk : Option (List UInt8)

/-- The slot of a descriptor. -/
def slot (s : State) (c fd : Nat) : Option Desc := (s.cages c).bind (fun cg => cg.fds fd)

/-- The file of an inode number. -/
def file (s : State) (i : Nat) : File := ⟨s.fs.inodes i, s.fs.fobj i, s.fs.disk i⟩

/-- Replace the file of an inode number. -/
def setFile (s : State) (i : Nat) (F : File) : State :=
  { s with fs := { s.fs with inodes := upd s.fs.inodes i F.ino, fobj := upd s.fs.fobj i F.fobj, disk := upd s.fs.disk i F.disk } }

/-- Where a call is while it holds the inode's lock. -/
inductive Body
  /-- about to begin -/
  | start
  /-- `read`: the bytes are in the buffer, the position is to be moved -/
  | got (bs : List UInt8)
  /-- write, pwrite, writev at `off`: the gap is filled, the data is to be written -/
  | filled (off : Nat) (data : List UInt8)
  /-- the data is written, the position is to be moved (write and writev) -/
  | wrote (off : Nat) (data : List UInt8)
  /-- the position is moved, the size is to be updated -/
  | placed (off : Nat) (data : List UInt8)
  /-- ftruncate: the bytes are cut or filled, the size is to be set -/
  | cut (n : Nat)
  /-- over, with the answer; `log` if the inode is to be logged -/
  | over (o : Out) (log : Bool)
  deriving DecidableEq

/-- `writeat`, `/repo/src/interface/file.rs` 172-202 and `zerofill_at` 261-282; `none` is a panic. -/
def File.writeAt (F : File) (off : Nat) (data : List UInt8) : Option File :=
  match F.fobj with
  | none => none
  | some sz =>
    if off > sz then none
    else some { F with fobj := some (max sz (off + data.length)), disk := some (overwrite (F.disk.getD []) off data) }

/-- The beginning of the `Inode::File` arm of write, pwrite and writev: fill the gap.  2065-2096, 2314-2343, 2687-2714. -/
def fillGap (F : File) (nd : Inode) (off : Nat) (data : List UInt8) : File × Body :=
  if off > nd.size then
    match F.writeAt nd.size (List.replicate (off - nd.size) 0) with
    | none => (F, .over (.r .panic) false)
    | some F => (F, .filled off data)
  else if F.fobj.isNone then (F, .over (.r .panic) false)
  else (F, .filled off data)

/-- `EmulatedFile::readat`, `/repo/src/interface/file.rs` 149-166. -/
def File.readAt (F : File) (off n : Nat) : Option (List UInt8) :=
  match F.fobj with
  | none => none
  | some sz => if off > sz then none else some (((F.disk.getD []).drop off).take n)

/-- The first effect under the inode's lock, by the kind of the inode. -/
def begin (call : Call) (i pos : Nat) (f : BitVec 32) (d : Option Desc) (F : File) : Option Desc × File × Body :=
  match F.ino with
  | none => (d, F, .over (.r .panic) false)
  | some nd =>
    match call, nd.kind with
    -- 1613-1660
    | .read n, .file =>
      match F.readAt pos n with
      | none => (d, F, .over (.r .panic) false)
      | some bs => (d, F, .got bs)
    | .read n, .chr dev => (d, F, .over (readChr dev n) false)
    | .read _, .sock => (d, F, .over (.r .panic) false)
    | .read _, .dir => (d, F, .over (.r (.err .EISDIR)) false)
    -- 1822-1860
    | .pread n off, .file =>
      if off < 0 then (d, F, .over (.r .panic) false)
      else match F.readAt off.toNat n with
        | none => (d, F, .over (.r .panic) false)
        | some bs => (d, F, .over { ret := .ok (toI32 bs.length), data := bs } false)
    | .pread n _, .chr dev => (d, F, .over (readChr dev n) false)
    | .pread _ _, .sock => (d, F, .over (.r .panic) false)
    | .pread _ _, .dir => (d, F, .over (.r (.err .EISDIR)) false)
    -- 2052-2130
    | .write data, .file => (d, fillGap F nd pos data)
    | .write data, .chr dev => (d, F, .over (writeChr dev data.length) false)
    | .write _, .sock => (d, F, .over (.r .panic) false)
    | .write _, .dir => (d, F, .over (.r (.err .EISDIR)) false)
    -- 2305-2372
    | .pwrite data off, .file =>
      if off < 0 then (d, F, .over (.r .panic) false) else (d, fillGap F nd off.toNat data)
    | .pwrite data _, .chr dev => (d, F, .over (writeChr dev data.length) false)
    | .pwrite _ _, .sock => (d, F, .over (.r .panic) false)
    | .pwrite _ _, .dir => (d, F, .over (.r (.err .EISDIR)) false)
    -- 2683-2760
    | .writev iovs, .file => (d, fillGap F nd pos iovs.flatten)
    | .writev iovs, .chr dev => (d, F, .over (writeChr dev iovs.flatten.length) false)
    | .writev _, .sock => (d, F, .over (.r .panic) false)
    | .writev _, .dir => (d, F, .over (.r (.err .EISDIR)) false)
    -- 2877-2970
    | .lseek _ _, .chr _ => (d, F, .over (.r (.ok 0)) false)
    | .lseek _ _, .sock => (d, F, .over (.r .panic) false)
    | .lseek off whence, .file =>
      if whence = 0 ∨ whence = 1 ∨ whence = 2 then
        let e : Int := (if whence = 0 then 0 else if whence = 1 then (pos : Int) else nd.size) + off
        if e < 0 then (d, F, .over (.r (.err .EINVAL)) false)
        else (some (.file i e.toNat f), F, .over (.r (.ok (toI32 e))) false)
      else (d, F, .over (.r (.err .EINVAL)) false)
    | .lseek off whence, .dir =>
      if whence = 0 ∨ whence = 1 ∨ whence = 2 then
        let e : Int := (if whence = 0 then 0 else if whence = 1 then (pos : Int) else nd.ents.length) + off
        if e < 0 then (d, F, .over (.r (.err .EINVAL)) false)
        else if e > nd.ents.length then (d, F, .over (.r (.err .EINVAL)) false)
        else (some (.file i e.toNat f), F, .over (.r (.ok (toI32 e))) false)
      else (d, F, .over (.r (.err .EINVAL)) false)
    -- 4981-5054
    | .ftruncate len, .file =>
      match F.fobj with
      | none => (d, F, .over (.r .panic) false)
      | some sz =>
        if nd.size < len.toNat then
          match F.writeAt nd.size (List.replicate (len.toNat - nd.size) 0) with
          | none => (d, F, .over (.r .panic) false)
          | some F => (d, F, .cut len.toNat)
        else if len.toNat > sz then (d, F, .over (.r .panic) false)
        else (d, { F with fobj := some len.toNat, disk := some ((F.disk.getD []).take len.toNat) }, .cut len.toNat)
    | .ftruncate _, .dir => (d, F, .over (.r (.err .EISDIR)) false)
    | .ftruncate _, _ => (d, F, .over (.r (.err .EINVAL)) false)
    -- 1332-1360
    | .fstat, _ => (d, F, .over { ret := .ok 0, stat := some (statOf i nd) } false)
    -- 4151-4188
    | .fchmod mode, k =>
      (d, { F with ino := some { nd with mode := (nd.mode &&& ~~~sIRWXA) ||| mode } }, .over (.r (.ok 0)) (k ≠ .sock))
    -- 5447-5525
    | .getdents n, .dir =>
      let r := Getdents.getdents nd.ents pos n
      (some (.file i r.pos f), F, .over { ret := r.ret, data := r.bytes } false)
    | .getdents _, _ => (d, F, .over (.r (.err .ENOTDIR)) false)

/-- One effect under the inode's lock: on the descriptor's slot, on the file, and where the call is then. -/
def effect (call : Call) (i pos : Nat) (f : BitVec 32) (b : Body) (d : Option Desc) (F : File) : Option Desc × File × Body :=
  match b with
  | .start => begin call i pos f d F
  -- 1633-1635
  | .got bs => (some (.file i (pos + bs.length) f), F, .over { ret := .ok (toI32 bs.length), data := bs } false)
  -- 2101, 2347, 2718
  | .filled off data =>
    match F.writeAt off data with
    | none => (d, F, .over (.r .panic) false)
    | some F => (d, F, .wrote off data)
  -- 2103, 2720; pwrite leaves the position alone
  | .wrote off data =>
    match call with
    | .pwrite _ _ => (d, F, .placed off data)
    | _ => (some (.file i (off + data.length) f), F, .placed off data)
  -- 2105-2112, 2351-2358, 2725-2732
  | .placed off data =>
    match F.ino with
    | none => (d, F, .over (.r .panic) false)
    | some nd =>
      if off + data.length > nd.size then
        (d, { F with ino := some { nd with size := off + data.length } }, .over (.r (.ok (toI32 data.length))) true)
      else (d, F, .over (.r (.ok (toI32 data.length))) false)
  -- 5035-5039
  | .cut n =>
    match F.ino with
    | none => (d, F, .over (.r .panic) false)
    | some nd => (d, { F with ino := some { nd with size := n } }, .over (.r (.ok 0)) true)
  | .over o l => (d, F, .over o l)

/-- What a call does once it holds the descriptor's lock: the answer, if that is known already; or the inode to lock.
`none`: a pipe or socket, not modelled. -/
inductive Look
  | answer (o : Out)
  | inode (i pos : Nat) (f : BitVec 32)
  | other

/-- The check of the buffer size in getdents comes before the descriptor is looked at: 5428-5434. -/
def Call.tooSmall : Call → Bool
  | .getdents n => n ≤ Getdents.clipped
  | _ => false

/-- The checks before the inode is locked: of the flags (1597-1603, 1808-1814, 2036-2042, 2289-2295, 2671-2678, 5230-5236),
of the length (4976-4977) and of the mode (4148-4150). -/
def lookFile (i pos : Nat) (f : BitVec 32) : Call → Look
  | .read _ | .pread _ _ => if isWronly f then .answer (.r (.err .EBADF)) else .inode i pos f
  | .write _ | .pwrite _ _ | .writev _ => if isRdonly f then .answer (.r (.err .EBADF)) else .inode i pos f
  | .ftruncate len =>
    if isRdonly f then .answer (.r (.err .EBADF)) else if len < 0 then .answer (.r (.err .EINVAL)) else .inode i pos f
  | .fchmod mode => if mode &&& sIRWXA = mode then .inode i pos f else .answer (.r (.err .EINVAL))
  | .lseek _ _ | .fstat | .getdents _ => .inode i pos f

/-- `_alt_stat_helper`, 1263-1274: what fstat says of streams, pipes and epoll instances. -/
def altStat (i : Nat) : Out := { ret := .ok 0, stat := some { ino := i, mode := 49590#32, nlink := 1, size := 0, rdev := 0 } }

/-- The answers on a standard stream. -/
def lookStream (k : Nat) : Call → Look
  | .read _ => .answer (.r (.err .EOPNOTSUPP))
  | .write data => if k = 1 ∨ k = 2 then .answer (.r (.ok (toI32 data.length))) else .answer (.r (.err .EBADF))
  | .writev iovs => .answer (.r (.ok (toI32 iovs.flatten.length)))
  | .ftruncate _ | .fchmod _ => .answer (.r (.err .EINVAL))
  | .fstat => .answer (altStat 2)
  | .pread _ _ | .pwrite _ _ | .lseek _ _ | .getdents _ => .answer (.r (.err .ESPIPE))

/-- The answers on an epoll instance. -/
def lookEpoll : Call → Look
  | .read _ | .write _ | .ftruncate _ | .fchmod _ => .answer (.r (.err .EINVAL))
  | .writev _ => .answer (.r (.err .EOPNOTSUPP))
  | .fstat => .answer (altStat 0xfeef0000)
  | .pread _ _ | .pwrite _ _ | .lseek _ _ | .getdents _ => .answer (.r (.err .ESPIPE))

/-- The answers on a pipe. -/
def lookPipe : Call → Look
  | .read _ | .write _ | .writev _ => .other
  | .ftruncate _ | .fchmod _ => .answer (.r (.err .EINVAL))
  | .fstat => .answer (altStat 0xfeef0000)
  | .pread _ _ | .pwrite _ _ | .lseek _ _ | .getdents _ => .answer (.r (.err .ESPIPE))

/-- The answers on a socket. -/
def lookSock : Call → Look
  | .read _ | .write _ | .writev _ => .other
  | .ftruncate _ | .fchmod _ => .answer (.r (.err .EINVAL))
  | .fstat => .answer (.r (.err .EOPNOTSUPP))
  | .pread _ _ | .pwrite _ _ | .lseek _ _ | .getdents _ => .answer (.r (.err .ESPIPE))

/-- The part of the calls before the inode is locked. -/
def look (call : Call) (d : Option Desc) : Look :=
  if call.tooSmall then .answer (.r (.err .EINVAL))
  else match d with
    | none => .answer (.r (.err .EBADF))
    | some (.file i pos f) => lookFile i pos f call
    | some (.stream k _) => lookStream k call
    | some (.epoll _) => lookEpoll call
    | some (.pipe _ _) => lookPipe call
    | some (.sock _) => lookSock call

/-- Where a thread is. -/
inductive Pc
  | idle
  /-- about to lock the descriptor -/
  | wait
  /-- holds the descriptor, about to look at it -/
  | slot
  /-- about to lock the inode -/
  | want (i pos : Nat) (f : BitVec 32)
  /-- holds the inode -/
  | node (i pos : Nat) (f : BitVec 32) (b : Body)
  /-- has dropped the inode, about to take its record for the log -/
  | logRead (i : Nat) (o : Out)
  /-- about to append the record -/
  | logWrite (i : Nat) (r : Option Inode) (o : Out)
  /-- about to drop the descriptor and return -/
  | leave (o : Out)
  deriving DecidableEq

/-- Who holds a lock, and whether for writing. -/
abbrev Lock := List (Nat × Bool)

/-- A lock may be taken for writing if nobody holds it, for reading if nobody holds it for writing. -/
def Lock.free (l : Lock) (ex : Bool) : Bool := l.all (fun h => !ex && !h.2)

/-- `t` drops a lock. -/
def Lock.drop (l : Lock) (t : Nat) : Lock := l.filter (fun h => h.1 != t)

/-- The call a thread makes. -/
structure Job where
  cage : Nat
  fd : Nat
  call : Call
  deriving DecidableEq, Repr

/-- The shared memory, the locks and the threads. -/
structure Conc where
  s : State
  slots : Nat → Nat → Lock
  nodes : Nat → Lock
  job : Nat → Option Job
  pc : Nat → Pc

/-- Put a thread somewhere. -/
def Conc.at (C : Conc) (t : Nat) (p : Pc) : Conc := { C with pc := upd C.pc t p }

/-- Change the lock of a slot. -/
def Conc.setSlot (C : Conc) (c fd : Nat) (l : Lock) : Conc := { C with slots := upd C.slots c (upd (C.slots c) fd l) }

/-- One step of thread `t`; `none` if it cannot go on. -/
def go (C : Conc) (t : Nat) : Option Conc :=
  match C.job t with
  | none => none
  | some ⟨c, fd, call⟩ =>
    match C.pc t with
    | .idle => none
    | .wait =>
      if Lock.free (C.slots c fd) call.slotEx then
        some ((C.setSlot c fd ((t, call.slotEx) :: C.slots c fd)).at t .slot)
      else none
    | .slot =>
      match look call (slot C.s c fd) with
      | .answer o => some (C.at t (.leave o))
      | .inode i pos f => some (C.at t (.want i pos f))
      | .other => none
    | .want i pos f =>
      if Lock.free (C.nodes i) call.inoEx then
        some ({ C with nodes := upd C.nodes i ((t, call.inoEx) :: C.nodes i) }.at t (.node i pos f .start))
      else none
    | .node i _ _ (.over o l) =>
      some ({ C with nodes := upd C.nodes i ((C.nodes i).drop t) }.at t (if l then .logRead i o else .leave o))
    | .node i pos f b =>
      let r := effect call i pos f b (slot C.s c fd) (file C.s i)
      some ({ C with s := (setFile C.s i r.2.1).setFd c fd r.1 }.at t (.node i pos f r.2.2))
    | .logRead i o =>
      if Lock.free (C.nodes i) false then some (C.at t (.logWrite i (C.s.fs.inodes i) o)) else none
    | .logWrite i r o =>
      some ({ C with s := { C.s with fs := { C.s.fs with log := C.s.fs.log ++ [(i, r)] } } }.at t (.leave o))
    | .leave _ =>
      some { (C.setSlot c fd ((C.slots c fd).drop t)).at t .idle with job := upd C.job t none }

/-- What the scheduler can do: a thread begins a call, or goes on. -/
inductive Act
  | start (t : Nat) (j : Job)
  | go (t : Nat)

/-- One action.  A thread makes one call at a time, in a cage that exists, on a number below 1024.  An action that is
not possible changes nothing. -/
def step (C : Conc) : Act → Conc
  | .start t j =>
    if C.job t = none ∧ (C.s.cages j.cage).isSome ∧ j.fd < maxFd then
      { C.at t .wait with job := upd C.job t (some j) }
    else C
  | .go t => (go C t).getD C

/-- A schedule. -/
def run (C : Conc) : List Act → Conc
  | [] => C
  | a :: as => run (step C a) as

/-- Nobody is calling. -/
def rest (s : State) : Conc := ⟨s, fun _ _ => [], fun _ => [], fun _ => none, fun _ => .idle⟩

end Verif.DataConc
