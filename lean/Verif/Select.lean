import Verif.UnixSock

/-!
# Model of select, poll and epoll

`/repo/src/safeposix/syscalls/net_calls.rs` 3364-3721, 4485-4618, 4663-5051.

These calls look at the descriptors again and again until one is ready or the time is up, while other threads change them.  What
a call sees is therefore a parameter: for every pass over the sets and for every descriptor an arbitrary view of it, so that the
theorems hold for every descriptor table and every interleaving.  A descriptor set is a predicate on descriptor numbers.
-/

namespace Verif.Select

open Verif.Pipe (Pipe)
open Verif.UnixSock (ConnState)

/-- `FD_SET_MAX_FD`, `/repo/src/safeposix/syscalls/net_constants.rs`. -/
def fdSetMax : Int := 1024

/-- What is looked at of a unix socket, `/repo/src/safeposix/syscalls/net_calls.rs` 3479-3536 and 3641-3662. -/
structure UnixView where
  st : ConnState
  /-- Whether the accept table has an entry at the local address; `none` without a local address. -/
  request : Option Bool
  /-- Whether the accept table has an entry at the remote address; `none` without a remote address. -/
  asking : Option Bool
  /-- The receive pipe, if there is one. -/
  inp : Option Pipe

/-- What is looked at of an open descriptor.  `inet raw est`: a socket with descriptor `raw` of the host (negative: none yet), and
whether it is in state INPROGRESS and the host says it is connected by now. -/
inductive View
  | file
  | epoll
  | stream
  | pipe (p : Pipe)
  | unix (u : UnixView)
  | inet (raw : Int) (est : Bool)
  | other

/-- The host's answer to `select` with zero timeout: failure, or which of its descriptors are readable,
`/repo/src/interface/comm.rs` 616-641. -/
structure Host where
  fail : Bool
  ready : Int → Bool

/-- What one pass sees: the descriptors when it checks the read, the write and the exception set, the host, whether the time is up
after it, and whether a signal is pending then. -/
structure Pass where
  rd : Nat → Option View
  wr : Nat → Option View
  ex : Nat → Option View
  host : Host
  late : Bool
  sig : Bool

/-- A descriptor set; `FD_ISSET`. -/
abbrev FdSet := Nat → Bool

/-- `new_readfds`/`new_writefds`, `retval` and `rawfd_lindfd_tuples`. -/
structure Acc where
  set : FdSet
  ret : Nat
  raws : List (Int × Nat)

/-- `new_readfds.set(fd); *retval += 1`. -/
def Acc.hit (a : Acc) (fd : Nat) : Acc := { a with set := fun d => a.set d || d == fd, ret := a.ret + 1 }

/-- One open descriptor in `select_readfds`, `/repo/src/safeposix/syscalls/net_calls.rs` 3474-3589. -/
def readOne (fd : Nat) (v : View) (a : Acc) : Except Ret Acc :=
  match v with
  | .file => .ok (a.hit fd)
  | .epoll => .ok (a.hit fd)
  | .stream => .ok a
  | .pipe p => .ok (if p.selectRead then a.hit fd else a)
  | .unix u =>
    match (if u.st = .inProgress then u.asking.map (!·) else some false) with
    | none => .error .panic
    | some new =>
      if u.st = .listen then
        match u.request with
        | none => .error .panic
        | some true => .ok (a.hit fd)
        | some false => .ok a
      else if u.st = .connected ∨ new = true then
        match u.inp with
        | none => .error .panic
        | some p => .ok (if p.selectRead then a.hit fd else a)
      else .ok a
  | .inet raw _ =>
    if raw < 0 then .ok a
    else if raw ≥ fdSetMax then .error .panic
    else .ok { a with raws := a.raws ++ [(raw, fd)] }
  | .other => .error (.err .EINVAL)

/-- The loop of `select_readfds`, `/repo/src/safeposix/syscalls/net_calls.rs` 3463-3593. -/
def readLoop (req : FdSet) (obs : Nat → Option View) : List Nat → Acc → Except Ret Acc
  | [], a => .ok a
  | fd :: fds, a =>
    if req fd = false then readLoop req obs fds a
    else
      match obs fd with
      | none => .error (.err .EBADF)
      | some v =>
        match readOne fd v a with
        | .error r => .error r
        | .ok a' => readLoop req obs fds a'

/-- The host descriptors in `kernel_fds`, each with the first descriptor it was found for, which is the one
`set_from_kernelfds_and_translate` takes, `/repo/src/interface/comm.rs` 590-605. -/
def firsts : List (Int × Nat) → List (Int × Nat)
  | [] => []
  | t :: ts => t :: (firsts ts).filter (·.1 ≠ t.1)

/-- `update_readfds_from_kernel_select`, `/repo/src/safeposix/net.rs` 550-575, and its use,
`/repo/src/safeposix/syscalls/net_calls.rs` 3598-3604.  The host's `select` returns the number of descriptors left in the set; on failure
it returns -1, which is passed on as it is. -/
def hostPart (h : Host) (a : Acc) : Except Ret Acc :=
  if a.raws = [] then .ok a
  else if h.fail then (if a.ret = 0 then .error (.err .EPERM) else .ok a)
  else
    let ts := (firsts a.raws).filter (fun t => h.ready t.1)
    .ok { a with set := fun d => a.set d || decide (d ∈ ts.map (·.2)), ret := a.ret + ts.length }

/-- `select_readfds`, `/repo/src/safeposix/syscalls/net_calls.rs` 3453-3607. -/
def selectRead (n : Nat) (req : FdSet) (p : Pass) (set : FdSet) (ret : Nat) : Except Ret (FdSet × Nat) :=
  match readLoop req p.rd (List.range n) { set := set, ret := ret, raws := [] } with
  | .error r => .error r
  | .ok a =>
    match hostPart p.host a with
    | .error r => .error r
    | .ok a' => .ok (a'.set, a'.ret)

/-- One open descriptor in `select_writefds`, `/repo/src/safeposix/syscalls/net_calls.rs` 3633-3715.  If a connection in progress turns
out to be made, the write lock of the handle is taken while the read lock is held: the call never returns.  (The code looks the unix
remote address up without normalising it; `asking` stands for that lookup here.) -/
def writeOne (v : View) : Except Ret Bool :=
  match v with
  | .file => .ok true
  | .epoll => .ok true
  | .stream => .ok true
  | .pipe p => .ok p.selectWrite
  | .unix u =>
    if u.st = .inProgress then
      match u.asking with
      | none => .error .panic
      | some true => .ok true
      | some false => .error .blocked
    else .ok true
  | .inet _ est => if est then .error .blocked else .ok true
  | .other => .error (.err .EINVAL)

/-- `select_writefds`, `/repo/src/safeposix/syscalls/net_calls.rs` 3615-3721. -/
def writeLoop (req : FdSet) (obs : Nat → Option View) : List Nat → FdSet × Nat → Except Ret (FdSet × Nat)
  | [], a => .ok a
  | fd :: fds, a =>
    if req fd = false then writeLoop req obs fds a
    else
      match obs fd with
      | none => .error (.err .EBADF)
      | some v =>
        match writeOne v with
        | .error r => .error r
        | .ok b => writeLoop req obs fds (if b then (fun d => a.1 d || d == fd, a.2 + 1) else a)

/-- The exception set, `/repo/src/safeposix/syscalls/net_calls.rs` 3409-3421: only whether the descriptors are open. -/
def exceptLoop (req : FdSet) (obs : Nat → Option View) : List Nat → Option Ret
  | [] => none
  | fd :: fds =>
    if req fd = false then exceptLoop req obs fds
    else if (obs fd).isNone then some (.err .EBADF)
    else exceptLoop req obs fds

/-- What a call leaves: the return value and the two result sets.  The exception set is not touched. -/
structure Out where
  ret : Ret
  rd : Option FdSet
  wr : Option FdSet

/-- The result sets so far and `retval`. -/
structure Sets where
  rd : FdSet
  wr : FdSet
  ret : Nat

/-- The read set, if there is one, `/repo/src/safeposix/syscalls/net_calls.rs` 3392-3397. -/
def readPart (n : Nat) (r : Option FdSet) (p : Pass) (a : Sets) : Except Ret Sets :=
  match r with
  | none => .ok a
  | some req =>
    match selectRead n req p a.rd a.ret with
    | .error x => .error x
    | .ok (rd, c) => .ok { a with rd := rd, ret := c }

/-- The write set, if there is one, `/repo/src/safeposix/syscalls/net_calls.rs` 3400-3405. -/
def writePart (n : Nat) (w : Option FdSet) (p : Pass) (a : Sets) : Except Ret Sets :=
  match w with
  | none => .ok a
  | some req =>
    match writeLoop req p.wr (List.range n) (a.wr, a.ret) with
    | .error x => .error x
    | .ok (wr, c) => .ok { a with wr := wr, ret := c }

/-- The exception set, if there is one, `/repo/src/safeposix/syscalls/net_calls.rs` 3409-3421. -/
def exceptPart (n : Nat) (e : Option FdSet) (p : Pass) (a : Sets) : Except Ret Sets :=
  match e with
  | none => .ok a
  | some req =>
    match exceptLoop req p.ex (List.range n) with
    | some x => .error x
    | none => .ok a

/-- One pass of the loop, `/repo/src/safeposix/syscalls/net_calls.rs` 3392-3421. -/
def pass (n : Nat) (r w e : Option FdSet) (p : Pass) (a : Sets) : Except Ret Sets :=
  match readPart n r p a with
  | .error x => .error x
  | .ok a1 =>
    match writePart n w p a1 with
    | .error x => .error x
    | .ok a2 => exceptPart n e p a2

/-- The loop of `select_syscall`, `/repo/src/safeposix/syscalls/net_calls.rs` 3389-3444.  When the passes run out the call is still
waiting. -/
def selectLoop (n : Nat) (r w e : Option FdSet) : List Pass → Sets → Out
  | [], _ => { ret := .blocked, rd := r, wr := w }
  | p :: ps, a =>
    match pass n r w e p a with
    | .error x => { ret := x, rd := r, wr := w }
    | .ok a' =>
      if a'.ret ≠ 0 ∨ p.late = true then { ret := .ok a'.ret, rd := r.map fun _ => a'.rd, wr := w.map fun _ => a'.wr }
      else if p.sig then { ret := .err .EINTR, rd := r, wr := w }
      else selectLoop n r w e ps a'

/-- No descriptors. -/
def emptySet : FdSet := fun _ => false

/-- `select_syscall`, `/repo/src/safeposix/syscalls/net_calls.rs` 3364-3445. -/
def select (nfds : Int) (r w e : Option FdSet) (ps : List Pass) : Out :=
  if nfds < 0 ∨ nfds ≥ fdSetMax then { ret := .err .EINVAL, rd := r, wr := w }
  else selectLoop nfds.toNat r w e ps { rd := emptySet, wr := emptySet, ret := 0 }

/-! ## poll -/

/-- `POLLIN`, `POLLPRI`, `POLLOUT`, `POLLNVAL`, `/repo/src/safeposix/syscalls/net_constants.rs`. -/
def pollIn : BitVec 16 := 1#16
def pollPri : BitVec 16 := 2#16
def pollOut : BitVec 16 := 4#16
def pollNval : BitVec 16 := 0o40#16

/-- `PollStruct`, `/repo/src/interface/types.rs`. -/
structure PollFd where
  fd : Int
  events : BitVec 16
  revents : BitVec 16
  deriving DecidableEq, Repr

/-- The set `FD_SET` makes of `fd`, or nothing. -/
def single (fd : Nat) (b : Bool) : FdSet := fun d => b && d == fd

/-- `is_empty` of a set of 1024 bits, `/repo/src/interface/comm.rs` 581-586. -/
def isEmpty (s : FdSet) : Bool := (List.range 1024).all fun d => !s d

/-- One entry, `/repo/src/safeposix/syscalls/net_calls.rs` 4531-4602: the new `revents` and whether it is counted, or the result with
which the whole call ends.  `FD_SET` of a descriptor from 1024 on is an index out of bounds; `ps` is what the inner select sees. -/
def pollOne (x : PollFd) (ps : List Pass) : Except Ret (BitVec 16 × Nat) :=
  let i := x.events &&& pollIn ≠ 0
  let o := x.events &&& pollOut ≠ 0
  let p := x.events &&& pollPri ≠ 0
  if x.fd ≥ fdSetMax ∧ (i ∨ o ∨ p) then .error .panic
  else
    let s := select (x.fd + 1) (some (single x.fd.toNat i)) (some (single x.fd.toNat o)) (some (single x.fd.toNat p)) ps
    match s.ret with
    | .ok k =>
      if k > 0 then
        .ok ((if isEmpty (s.rd.getD emptySet) then 0 else pollIn) ||| (if isEmpty (s.wr.getD emptySet) then 0 else pollOut) |||
          (if p then pollPri else 0), 1)
      else .ok (0, 0)
    | .err .EBADF => .ok (pollNval, 1)
    | r => .error r

/-- One pass over the entries, `/repo/src/safeposix/syscalls/net_calls.rs` 4531-4602.  `sees` gives, for the position of an entry, what
its select sees. -/
def pollPass (sees : Nat → List Pass) : Nat → List PollFd → Except Ret (List PollFd × Nat)
  | _, [] => .ok ([], 0)
  | i, x :: xs =>
    if x.fd < 0 then
      match pollPass sees (i + 1) xs with
      | .error r => .error r
      | .ok (ys, c) => .ok (x :: ys, c)
    else
      match pollOne x (sees i) with
      | .error r => .error r
      | .ok (m, c) =>
        match pollPass sees (i + 1) xs with
        | .error r => .error r
        | .ok (ys, c') => .ok ({ x with revents := m } :: ys, c + c')

/-- What one round of poll sees. -/
structure Round where
  sees : Nat → List Pass
  late : Bool
  sig : Bool

/-- The loop of `poll_syscall`, `/repo/src/safeposix/syscalls/net_calls.rs` 4529-4617.  (If the call fails the entries are left half
changed; that is not modelled.) -/
def pollLoop : List Round → List PollFd → Ret × List PollFd
  | [], xs => (.blocked, xs)
  | r :: rs, xs =>
    match pollPass r.sees 0 xs with
    | .error x => (x, xs)
    | .ok (ys, c) =>
      if c ≠ 0 ∨ r.late = true then (.ok c, ys)
      else if r.sig then (.err .EINTR, ys)
      else pollLoop rs ys

/-- `poll_syscall`, `/repo/src/safeposix/syscalls/net_calls.rs` 4485-4618. -/
def poll (xs : List PollFd) (rs : List Round) : Ret × List PollFd :=
  pollLoop rs (xs.map fun x => { x with revents := 0 })

/-! ## epoll -/

/-- `EpollEvent`: the event bits and the number the caller stores, `/repo/src/interface/types.rs`. -/
structure Ev where
  events : BitVec 32
  data : Int
  deriving DecidableEq, Repr

/-- `registered_fds` of an epoll descriptor. -/
abbrev Reg := List (Nat × Ev)

def Reg.get (m : Reg) (fd : Nat) : Option Ev := (m.find? (·.1 == fd)).map (·.2)
/-- `remove` of a `DashMap`. -/
def Reg.del (m : Reg) (fd : Nat) : Reg := m.filter (·.1 != fd)
/-- `insert` of a `DashMap`. -/
def Reg.put (m : Reg) (fd : Nat) (e : Ev) : Reg := (fd, e) :: m.del fd

/-- What `epoll_ctl` and `epoll_wait` find at `epfd`. -/
inductive EpSlot
  | closed
  | notEpoll
  | epoll (m : Reg)

/-- `MAXFD`, `/repo/src/safeposix/cage.rs`. -/
def maxFd : Int := 1024

/-- `epoll_ctl_syscall`, `/repo/src/safeposix/syscalls/net_calls.rs` 4717-4861; `target` is what is found at `fd`. -/
def epollCtl (slot : EpSlot) (epfd op fd : Int) (target : Option View) (ev : Ev) : EpSlot × Ret :=
  if epfd < 0 ∨ epfd ≥ maxFd then (slot, .err .EBADF)
  else if fd < 0 ∨ fd ≥ maxFd then (slot, .err .EBADF)
  else
    match slot with
    | .closed => (slot, .err .EBADF)
    | .notEpoll => (slot, .err .EINVAL)
    | .epoll m =>
      if fd = epfd then (slot, .err .EINVAL)
      else
        match target with
        | none => (slot, .err .EBADF)
        | some .epoll => (slot, .err .EBADF)
        | some .file => (slot, .err .EPERM)
        | some _ =>
          if op = 2 then
            match m.get fd.toNat with
            | none => (slot, .err .ENOENT)
            | some _ => (.epoll (m.del fd.toNat), .ok 0)
          else if op = 3 then
            match m.get fd.toNat with
            | none => (slot, .err .ENOENT)
            | some _ => (.epoll (m.put fd.toNat ev), .ok 0)
          else if op = 1 then
            match m.get fd.toNat with
            | some _ => (slot, .err .EEXIST)
            | none => (.epoll (m.put fd.toNat ev), .ok 0)
          else (slot, .err .EINVAL)

/-- The poll events made of the registered ones, `/repo/src/safeposix/syscalls/net_calls.rs` 4959-4977. -/
def toPoll (e : BitVec 32) : BitVec 16 :=
  (if e &&& 1 ≠ 0 then pollIn else 0) ||| (if e &&& 4 ≠ 0 then pollOut else 0) ||| (if e &&& 2 ≠ 0 then pollPri else 0)

/-- The epoll events made of the reported ones, `/repo/src/safeposix/syscalls/net_calls.rs` 5008-5021. -/
def ofPoll (r : BitVec 16) : BitVec 32 :=
  (if r &&& pollIn ≠ 0 then 1 else 0) ||| (if r &&& pollOut ≠ 0 then 4 else 0) ||| (if r &&& pollPri ≠ 0 then 2 else 0)

/-- The events handed out, `/repo/src/safeposix/syscalls/net_calls.rs` 4995-5033.  With room for `k` more; each with the descriptor it is
for (which the code does not hand out). -/
def collect (m : Reg) : Nat → List PollFd → Except Ret (List (Nat × Ev))
  | _, [] => .ok []
  | k, x :: xs =>
    match m.get x.fd.toNat with
    | none => .error .panic
    | some e =>
      if ofPoll x.revents ≠ 0 then
        if k ≤ 1 then .ok [(x.fd.toNat, { events := ofPoll x.revents, data := e.data })]
        else
          match collect m (k - 1) xs with
          | .error r => .error r
          | .ok es => .ok ((x.fd.toNat, { events := ofPoll x.revents, data := e.data }) :: es)
      else collect m k xs

/-- `epoll_wait_syscall`, `/repo/src/safeposix/syscalls/net_calls.rs` 4902-5051.  `iter` is the order in which the map gives its entries,
`isOpen` which descriptors are open then.  The slot of `epfd` stays locked, so a registered `epfd` is never got past. -/
def epollWait (slot : EpSlot) (epfd maxevents : Int) (iter : Reg) (isOpen : Nat → Bool) (rs : List Round) :
    EpSlot × Ret × List (Nat × Ev) :=
  if epfd < 0 ∨ epfd ≥ maxFd then (slot, .err .EBADF, [])
  else
    match slot with
    | .closed => (slot, .err .EBADF, [])
    | .notEpoll => (slot, .err .EINVAL, [])
    | .epoll m =>
      if maxevents ≤ 0 then (slot, .err .EINVAL, [])
      else if iter.any (fun e => (e.1 : Int) == epfd) then (slot, .blocked, [])
      else
        let xs := (iter.filter fun e => isOpen e.1).map fun e => ({ fd := e.1, events := toPoll e.2.events, revents := 0 } : PollFd)
        let m' := m.filter fun e => isOpen e.1
        match poll xs rs with
        | (.ok _, ys) =>
          match collect m' maxevents.toNat ys with
          | .error r => (.epoll m', r, [])
          | .ok es => (.epoll m', .ok es.length, es)
        | (r, _) => (.epoll m', r, [])

end Verif.Select
