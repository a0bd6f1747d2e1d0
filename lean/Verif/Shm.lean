import Verif.Base

/-!
# Shared memory

Model of `/repo/src/safeposix/shm.rs`, of the shared memory calls in `/repo/src/safeposix/syscalls/fs_calls.rs`
5602-5958, and of what fork, exec and exit do with attachments (`/repo/src/safeposix/syscalls/sys_calls.rs` 47-70,
370-371, 392-407, 440-444, 516, 563-567).

Simplifications: one call at a time; identifiers and counts do not overflow 32 bits; owner, creator and times are left
out; semaphores inside a segment are left out (they are in `SemShm`); creating the backing file
succeeds (the code unwraps it); addresses are below 2^32.  The memory itself is the host's mapping of one file.
-/

namespace Verif.Shm

/-- `ShmSegment` with the fields of `ShmidsStruct` that are modelled, `/repo/src/safeposix/shm.rs` 11-22, 36-73. -/
structure Seg where
  key : Int
  size : Nat
  /-- the permission bits of `shm_perm.mode` -/
  mode : BitVec 16
  nattch : Nat := 0
  rmid : Bool := false
  /-- `attached_cages` -/
  att : Nat → Option Nat := fun _ => none

/-- `ShmMetadata`, `/repo/src/safeposix/shm.rs` 125-145, and `rev_shm` of every cage
(`/repo/src/safeposix/cage.rs` 114); `rev c = none` if there is no cage `c`. -/
structure State where
  next : Nat
  keys : Int → Option Nat
  segs : Nat → Option Seg
  rev : Nat → Option (List (Nat × Nat))

/-- `init_shm_metadata`, `/repo/src/safeposix/shm.rs` 132-138; the first cages are 0 and 1 (`lindrustinit`). -/
def init : State :=
  { next := 1, keys := fun _ => none, segs := fun _ => none, rev := fun c => if c ≤ 1 then some [] else none }

/-- `IPC_CREAT`, `/repo/src/safeposix/syscalls/fs_constants.rs`. -/
def ipcCreat : BitVec 32 := 0x200
/-- `IPC_EXCL`. -/
def ipcExcl : BitVec 32 := 0x400
/-- `SHM_DEST`. -/
def shmDest : BitVec 16 := 0x200
/-- `SHMMIN`. -/
def shmMin : Nat := 1
/-- `SHMMAX`. -/
def shmMax : Nat := 4278190079
/-- `MAXCAGEID`, `/repo/src/interface/misc.rs` 45. -/
def maxCage : Nat := 1024

/-- The answer of a call. -/
inductive Out
  | r (v : Ret)
  /-- what `IPC_STAT` stores: key, size (`shm_segsz`, 32 bits), mode, `shm_nattch` -/
  | stat (key : Int) (size : Nat) (mode : BitVec 16) (nattch : Nat)
  deriving DecidableEq, Repr

/-- `shmget_syscall`, `/repo/src/safeposix/syscalls/fs_calls.rs` 5679-5748. -/
def shmget (s : State) (key : Int) (size : Nat) (flg : BitVec 32) : State × Out :=
  if key = 0 then (s, .r (.err .ENOENT))
  else
    match s.keys key with
    | some id =>
      if flg &&& (ipcCreat ||| ipcExcl) = ipcCreat ||| ipcExcl then (s, .r (.err .EEXIST)) else (s, .r (.ok id))
    | none =>
      if flg &&& ipcCreat = 0 then (s, .r (.err .ENOENT))
      else if size % 2 ^ 32 < shmMin ∨ size % 2 ^ 32 > shmMax then (s, .r (.err .EINVAL))
      else
        ({ s with
            next := s.next + 1
            keys := updK s.keys key (some s.next)
            segs := upd s.segs s.next (some { key := key, size := size, mode := (flg &&& 0x1FF).setWidth 16 }) },
          .r (.ok s.next))

/-- `map_shm` without the host's mapping, `/repo/src/safeposix/shm.rs` 76-89. -/
def Seg.attach (g : Seg) (c : Nat) : Seg :=
  { g with nattch := g.nattch + 1, att := upd g.att c (some (match g.att c with | some n => n + 1 | none => 1)) }

/-- `shmat_syscall`, `/repo/src/safeposix/syscalls/fs_calls.rs` 5777-5829.  `host` says whether the host's `mmap`
succeeded; it returns -1 otherwise, and the attachment is recorded all the same. -/
def shmat (s : State) (c : Nat) (rv : List (Nat × Nat)) (id addr : Nat) (host : Bool) : State × Out :=
  match s.segs id with
  | none => (s, .r (.err .EINVAL))
  | some g =>
    ({ s with rev := upd s.rev c (some (rv ++ [(addr, id)])), segs := upd s.segs id (some (g.attach c)) },
      .r (if host then .ok addr else .err .EPERM))

/-- `rev_shm_find_index_by_addr`, `/repo/src/safeposix/syscalls/fs_calls.rs` 5602-5609. -/
def findAddr (addr : Nat) : List (Nat × Nat) → Option (Nat × Nat)
  | [] => none
  | u :: us => if u.1 = addr then some (0, u.2) else (findAddr addr us).map (fun p => (p.1 + 1, p.2))

/-- `Vec::swap_remove`. -/
def swapRemove (l : List (Nat × Nat)) (i : Nat) : List (Nat × Nat) :=
  match l.getLast? with
  | none => l
  | some x => (l.set i x).dropLast

/-- `unmap_shm` without the host's mapping, `/repo/src/safeposix/shm.rs` 101-123; `none` is a panic. -/
def Seg.detach (g : Seg) (c : Nat) : Option Seg :=
  if g.nattch = 0 then none
  else
    match g.att c with
    | none => none
    | some 0 => none
    | some (n + 1) => some { g with nattch := g.nattch - 1, att := upd g.att c (if n = 0 then none else some n) }

/-- Storing a segment, or removing it and its key if it is marked and unattached,
`/repo/src/safeposix/syscalls/fs_calls.rs` 5893-5909 and `/repo/src/safeposix/syscalls/sys_calls.rs` 59-63. -/
def State.putSeg (s : State) (id : Nat) (g : Seg) : State :=
  if g.rmid ∧ g.nattch = 0 then { s with segs := upd s.segs id none, keys := updK s.keys g.key none }
  else { s with segs := upd s.segs id (some g) }

/-- `shmdt_syscall`, `/repo/src/safeposix/syscalls/fs_calls.rs` 5862-5923. -/
def shmdt (s : State) (c : Nat) (rv : List (Nat × Nat)) (addr : Nat) : State × Out :=
  match findAddr addr rv with
  | none => (s, .r (.err .EINVAL))
  | some (i, id) =>
    match s.segs id with
    | none => (s, .r .panic)
    | some g =>
      match g.detach c with
      | none => (s, .r .panic)
      | some g' =>
        (({ s with rev := upd s.rev c (some (swapRemove rv i)) } : State).putSeg id g', .r (.ok id))

/-- `shmctl_syscall` with `IPC_RMID`, `/repo/src/safeposix/syscalls/fs_calls.rs` 5935-5944. -/
def rmid (s : State) (id : Nat) : State × Out :=
  match s.segs id with
  | none => (s, .r (.err .EINVAL))
  | some g => (s.putSeg id { g with rmid := true, mode := g.mode ||| shmDest }, .r (.ok 0))

/-- `shmctl_syscall` with `IPC_STAT`, `/repo/src/safeposix/syscalls/fs_calls.rs` 5931-5934. -/
def stat (s : State) (id : Nat) : Out :=
  match s.segs id with
  | none => .r (.err .EINVAL)
  | some g => .stat g.key (g.size % 2 ^ 32) g.mode g.nattch

/-- One iteration of `unmap_shm_mappings`, `/repo/src/safeposix/syscalls/sys_calls.rs` 49-68; `none` is a panic. -/
def unmapOne (s : State) (c id : Nat) : Option State :=
  match s.segs id with
  | none => none
  | some g =>
    if g.nattch = 0 then none
    else some (s.putSeg id { g with nattch := g.nattch - 1, att := upd g.att c none })

/-- `unmap_shm_mappings`. -/
def unmapAll (c : Nat) : List (Nat × Nat) → State → Option State
  | [], s => some s
  | u :: us, s =>
    match unmapOne s c u.2 with
    | none => none
    | some s' => unmapAll c us s'

/-- The loop of `fork_syscall` over the attachments, `/repo/src/safeposix/syscalls/sys_calls.rs` 395-405; `none` is a
panic. -/
def forkAll (c child : Nat) : List (Nat × Nat) → State → Option State
  | [], s => some s
  | u :: us, s =>
    match s.segs u.2 with
    | none => none
    | some g =>
      match g.att c with
      | none => none
      | some n =>
        forkAll c child us
          { s with segs := upd s.segs u.2 (some { g with nattch := g.nattch + 1, att := upd g.att child (some n) }) }

/-- Calls.  `shmctl` is split by command; an unknown command is `EINVAL`. -/
inductive Op
  | get (key : Int) (size : Nat) (flg : BitVec 32)
  | at (id addr : Nat) (host : Bool)
  | dt (addr : Nat)
  | rmid (id : Nat)
  | stat (id : Nat)
  | ctl (id : Nat)
  | fork (child : Nat)
  | exec (child : Nat)
  | exit
  deriving DecidableEq, Repr

/-- One call by cage `c`.  After a panic the state does not matter. -/
def step (s : State) (c : Nat) (op : Op) : State × Out :=
  match s.rev c with
  | none => (s, .r .panic)
  | some rv =>
    match op with
    | .get k sz f => shmget s k sz f
    | .at id a h => shmat s c rv id a h
    | .dt a => shmdt s c rv a
    | .rmid id => rmid s id
    | .stat id => (s, stat s id)
    | .ctl _ => (s, .r (.err .EINVAL))
    | .fork ch =>
      -- `/repo/src/safeposix/syscalls/sys_calls.rs` 392-407; the table entry is replaced
      match forkAll c ch rv s with
      | none => (s, .r .panic)
      | some s' =>
        if ch ≥ maxCage then (s, .r .panic) else ({ s' with rev := upd s'.rev ch (some rv) }, .r (.ok 0))
    | .exec ch =>
      -- `/repo/src/safeposix/syscalls/sys_calls.rs` 440-444, 516, 529
      match unmapAll c rv s with
      | none => (s, .r .panic)
      | some s' =>
        if ch ≥ maxCage then (s, .r .panic) else ({ s' with rev := upd (upd s'.rev c none) ch (some []) }, .r (.ok 0))
    | .exit =>
      -- `/repo/src/safeposix/syscalls/sys_calls.rs` 563-577
      match unmapAll c rv s with
      | none => (s, .r .panic)
      | some s' => ({ s' with rev := upd s'.rev c none }, .r (.ok 0))

end Verif.Shm
