import Verif.Kernel

/-!
# Unix stream sockets

Model of the `AF_UNIX`/`SOCK_STREAM` branches of the socket calls in
`/repo/src/safeposix/syscalls/net_calls.rs`, on top of the file system model `Fs` (names) and the pipe model `Pipe` (the two
directions of a connection).

Simplifications: one call at a time, except that a blocking `connect` keeps its socket locked until it is accepted;
descriptors of all cages are in one map and the caller says which free number a new descriptor gets (how numbers are chosen is
modelled in `Kernel`); a socket address is the path string (the 108-byte array and its zero padding are not modelled); the signal
sent on EPIPE is left out; `SOCK_DGRAM` is left out.
-/

namespace Verif.UnixSock

open Verif.Path Verif.Fs
open Verif.Pipe (Pipe End udsockCapacity)
open Verif.Kernel (names)

/-- `ConnState`, `/repo/src/safeposix/syscalls/net_constants.rs`. -/
inductive ConnState
  | notConnected | connected | rdOnly | wrOnly | listen | inProgress
  deriving DecidableEq, Repr

/-- `UnixSocketInfo`, `/repo/src/safeposix/net.rs` 108-114; the pipes are numbered. -/
structure Info where
  inode : Nat
  send : Option Nat
  recv : Option Nat
  deriving DecidableEq, Repr

/-- What the calls use of `SocketHandle`, `/repo/src/safeposix/net.rs` 117-134.  `waiting`: a blocking `connect` on it has not
been accepted yet and holds its lock. -/
structure Handle where
  st : ConnState := .notConnected
  laddr : Option Str := none
  raddr : Option Str := none
  info : Option Info := none
  peek : List UInt8 := []
  waiting : Bool := false
  deriving DecidableEq, Repr

/-- A socket descriptor: its handle and whether `O_NONBLOCK` is set. -/
structure Fd where
  h : Nat
  nb : Bool
  deriving DecidableEq, Repr

/-- `DomsockTableEntry`, `/repo/src/safeposix/net.rs` 184-189; the pipes as the accepting side uses them.  `waiter` stands for
`cond_var`. -/
structure Entry where
  addr : Str
  recv : Nat
  send : Nat
  waiter : Option Nat
  deriving DecidableEq, Repr

/-- Sockets, pipes made for connections, descriptors, `domsock_accept_table`, `UD_ID_COUNTER`; `domsock_paths` is `fs.dom`. -/
structure State where
  fs : Fs
  handles : Nat → Handle
  nh : Nat
  pipes : Nat → Pipe
  np : Nat
  fds : Nat → Option Fd
  acc : List Name → Option Entry
  ud : Nat

/-- Before any socket is made. -/
def init (fs : Fs) : State :=
  { fs := fs, handles := fun _ => {}, nh := 0, pipes := fun _ => Pipe.new udsockCapacity, np := 0, fds := fun _ => none,
    acc := fun _ => none, ud := 0 }

/-- Result of a call: return value, bytes stored for the caller, address stored, number of bytes taken from the caller. -/
structure Out where
  ret : Ret
  bytes : List UInt8 := []
  addr : Option Str := none
  pushed : Nat := 0
  deriving DecidableEq, Repr

def Out.r (r : Ret) : Out := { ret := r }

/-- `normpath(convpath(path), cage)` as names. -/
def pathOf (cwd a : Str) : List Name := names (normpath cwd a)

def State.setH (s : State) (h : Nat) (x : Handle) : State := { s with handles := upd s.handles h x }
def State.setP (s : State) (p : Nat) (x : Pipe) : State := { s with pipes := upd s.pipes p x }
def State.setFd (s : State) (d : Nat) (x : Option Fd) : State := { s with fds := upd s.fds d x }

/-- `fetch_sub` on the reference counts of a pipe wraps, `/repo/src/interface/pipe.rs` 138-145. -/
def decrWrap (p : Pipe) : End → Pipe
  | .read => { p with rref := if p.rref = 0 then 4294967295 else p.rref - 1 }
  | .write => { p with wref := if p.wref = 0 then 4294967295 else p.wref - 1 }

/-- `S_IFSOCK`, `/repo/src/safeposix/syscalls/fs_constants.rs`. -/
def sIFSOCK : BitVec 32 := 0o140000#32

/-- `bind_inner_socket_unix`, `/repo/src/safeposix/syscalls/net_calls.rs` 462-564: the file system part.  Gives the number of
the new inode on success. -/
def bindName (fs : Fs) (a : Str) (p : List Name) : Fs × Ret × Option Nat :=
  if a.length = 0 then (fs, .err .ENOENT, none)
  else
    match fs.walk p with
    | none => (fs, .panic, none)
    | some (none, none) => (fs, .err .ENOENT, none)
    | some (some _, _) => (fs, .err .EADDRINUSE, none)
    | some (none, some par) =>
      match p.getLast? with
      | none => (fs, .panic, none)
      | some name =>
        match fs.inodes par with
        | none => (fs, .panic, none)
        | some pd =>
          if pd.isDir then
            let nd : Inode :=
              { kind := .sock, mode := sIFSOCK ||| ((pd.mode ||| sFileType) &&& sIRWXA), size := 0, link := 1, ref := 1, ents := [] }
            let pd' := { pd with ents := entPut pd.ents name fs.next, link := pd.link + 1 }
            ({ fs with
                inodes := upd (upd fs.inodes par (some pd')) fs.next (some nd)
                next := fs.next + 1
                dom := p :: fs.dom.filter (· ≠ p) }, .ok 0, some fs.next)
          else ({ fs with next := fs.next + 1 }, .err .ENOTDIR, none)

/-- `bind_inner_socket` for a unix socket, `/repo/src/safeposix/syscalls/net_calls.rs` 416-458.  The address is recorded even
if the bind fails. -/
def bindH (s : State) (h : Nat) (cwd a : Str) : State × Ret :=
  let x := s.handles h
  match x.laddr with
  | some _ => (s, .err .EINVAL)
  | none =>
    match bindName s.fs a (pathOf cwd a) with
    | (fs, .ok v, some i) =>
      ({ s with fs := fs }.setH h { x with laddr := some a, info := some { inode := i, send := none, recv := none } }, .ok v)
    | (fs, r, _) => ({ s with fs := fs }.setH h { x with laddr := some a }, r)

/-- `gen_ud_path`, `/repo/src/interface/comm.rs` 189-196. -/
def genPath (n : Nat) : Str := [47, 115, 111, 99, 107] ++ (Nat.toDigits 10 n).map (fun c => c.toNat.toUInt8)

/-- `assign_new_addr_unix` and `bind_inner_socket` with the result ignored, as in
`/repo/src/safeposix/syscalls/net_calls.rs` 1041-1047 and 5176-5179. -/
def autoBind (s : State) (h : Nat) (cwd : Str) : State :=
  match (s.handles h).laddr with
  | some _ => s
  | none => (bindH { s with ud := s.ud + 1 } h cwd (genPath s.ud)).1

/-- Every call on a descriptor takes the locks of the descriptor and of its handle. -/
def withSock (s : State) (d : Nat) (f : Fd → Handle → State × Out) : State × Out :=
  match s.fds d with
  | none => (s, .r (.err .EBADF))
  | some fd => if (s.handles fd.h).waiting then (s, .r .blocked) else f fd (s.handles fd.h)

/-- `socket_syscall`, `/repo/src/safeposix/syscalls/net_calls.rs` 182-252, for `AF_UNIX`, `SOCK_STREAM`. -/
def socket (s : State) (d : Nat) (nb : Bool) : State × Out :=
  match s.fds d with
  | some _ => (s, .r (.err .ENFILE))
  | none => ({ s with handles := upd s.handles s.nh {}, nh := s.nh + 1 }.setFd d (some { h := s.nh, nb := nb }), .r (.ok d))

/-- `bind_syscall`, `/repo/src/safeposix/syscalls/net_calls.rs` 625-659. -/
def bind (s : State) (d : Nat) (cwd a : Str) : State × Out :=
  withSock s d fun fd _ => ((bindH s fd.h cwd a).1, .r (bindH s fd.h cwd a).2)

/-- `getsockname_syscall`, `/repo/src/safeposix/syscalls/net_calls.rs` 4308-4344. -/
def getsockname (s : State) (d : Nat) : State × Out :=
  withSock s d fun _ x => (s, { ret := .ok 0, addr := some (x.laddr.getD []) })

/-- `getpeername_syscall`, `/repo/src/safeposix/syscalls/net_calls.rs` 4237-4283. -/
def getpeername (s : State) (d : Nat) : State × Out :=
  withSock s d fun _ x =>
    match x.raddr with
    | none => (s, .r (.err .ENOTCONN))
    | some a => (s, { ret := .ok 0, addr := some a })

/-- `listen_syscall`, `/repo/src/safeposix/syscalls/net_calls.rs` 2432-2494. -/
def listen (s : State) (d : Nat) : State × Out :=
  withSock s d fun fd x =>
    match x.st with
    | .listen => (s, .r (.ok 0))
    | .notConnected => (s.setH fd.h { x with st := .listen }, .r (.ok 0))
    | _ => (s, .r (.err .EOPNOTSUPP))

/-- `connect_tcp` and `connect_tcp_unix`, `/repo/src/safeposix/syscalls/net_calls.rs` 996-1104.  A blocking call leaves the
handle waiting; its return value 0 comes with the accept. -/
def connect (s : State) (d : Nat) (cwd a : Str) : State × Out :=
  withSock s d fun fd x =>
    if x.st ≠ .notConnected then (s, .r (.err .EISCONN))
    else
      let s1 := autoBind s fd.h cwd
      let x1 := s1.handles fd.h
      let p := pathOf cwd a
      if p ∈ s1.fs.dom then
        match x1.info, x1.laddr with
        | some i, some la =>
          let x2 := { x1 with
            raddr := some a, info := some { i with send := some s1.np, recv := some (s1.np + 1) }, st := .connected
            waiting := !fd.nb }
          let e : Entry := { addr := la, recv := s1.np, send := s1.np + 1, waiter := if fd.nb then none else some fd.h }
          ({ s1 with
              handles := upd s1.handles fd.h x2
              pipes := upd (upd s1.pipes s1.np (Pipe.new udsockCapacity)) (s1.np + 1) (Pipe.new udsockCapacity)
              np := s1.np + 2
              acc := updK s1.acc p (some e) },
            .r (if fd.nb then .ok 0 else .blocked))
        | _, _ => (s1, .r .panic)
      else (s1, .r (.err .ENOENT))

/-- One more reference to a socket inode; `none` is the panic if it does not exist. -/
def bumpInode (fs : Fs) (i : Nat) : Option Fs :=
  match fs.inodes i with
  | none => none
  | some nd => some (if nd.isSock then fs.set i (some { nd with ref := nd.ref + 1 }) else fs)

/-- The waiting connector is released, `/repo/src/safeposix/syscalls/net_calls.rs` 3057-3062. -/
def wake (s : State) : Option Nat → State
  | none => s
  | some w => s.setH w { s.handles w with waiting := false }

/-- `accept_syscall` and `accept_unix`, `/repo/src/safeposix/syscalls/net_calls.rs` 2915-3131.  `new` is the number of the new
descriptor, `none` if the table is full (the code then returns the listening descriptor). -/
def accept (s : State) (d : Nat) (new : Option Nat) (cwd : Str) : State × Out :=
  withSock s d fun fd x =>
    match new with
    | none => (s, .r (.ok d))
    | some d' =>
      if s.fds d' ≠ none then (s, .r (.err .ENFILE))
      else if x.st ≠ .listen then (s, .r (.err .EINVAL))
      else
        match x.laddr with
        | none => (s, .r .panic)
        | some la =>
          match s.acc (pathOf cwd la) with
          | none => (s, .r (if fd.nb then .err .EAGAIN else .blocked))
          | some e =>
            let s1 := wake s e.waiter
            match s.fs.walk (pathOf cwd e.addr) with
            | none => (s, .r .panic)
            | some (ino, _) =>
              match (match ino with | none => some s.fs | some i => bumpInode s.fs i) with
              | none => (s, .r .panic)
              | some fs1 =>
                let x' : Handle :=
                  { st := .connected, laddr := some la, raddr := some e.addr
                    info := ino.map fun i => { inode := i, send := some e.send, recv := some e.recv } }
                ({ s1 with
                    fs := fs1, handles := upd s1.handles s1.nh x', nh := s1.nh + 1
                    fds := upd s1.fds d' (some { h := s1.nh, nb := fd.nb })
                    acc := updK s1.acc (pathOf cwd la) none },
                  { ret := .ok d', addr := some e.addr })

/-- `send_syscall` on a unix stream socket, `/repo/src/safeposix/syscalls/net_calls.rs` 1613-1687; `write_syscall` on a socket
is the same, `/repo/src/safeposix/syscalls/fs_calls.rs` 2136-2139. -/
def send (s : State) (d : Nat) (data : List UInt8) : State × Out :=
  withSock s d fun fd x =>
    if x.st ≠ .connected ∧ x.st ≠ .wrOnly then (s, .r (.err .ENOTCONN))
    else
      match x.info with
      | none => (s, .r .panic)
      | some i =>
        match i.send with
        | none => (s, .r (.err .ENOTCONN))
        | some p =>
          let r := (s.pipes p).writeNow data fd.nb
          (s.setP p r.1, { ret := r.2, pushed := r.1.buf.length - (s.pipes p).buf.length })

/-- `writev_syscall` on a unix stream socket, `/repo/src/safeposix/syscalls/fs_calls.rs` 2575-2611. -/
def writev (s : State) (d : Nat) (iovs : List (List UInt8)) : State × Out :=
  withSock s d fun fd x =>
    if x.st ≠ .connected ∧ x.st ≠ .wrOnly then (s, .r (.err .ENOTCONN))
    else
      match x.info with
      | none => (s, .r .panic)
      | some i =>
        match i.send with
        | none => (s, .r (.err .EAGAIN))
        | some p =>
          let r := (s.pipes p).writevNow iovs fd.nb
          (s.setP p r.1, { ret := r.2, pushed := r.1.buf.length - (s.pipes p).buf.length })

/-- `recv_common_inner_tcp` on a unix socket, `/repo/src/safeposix/syscalls/net_calls.rs` 1886-2113; `read_syscall` on a
socket is the same without `MSG_PEEK`, `/repo/src/safeposix/syscalls/fs_calls.rs` 1665-1668.  `k` is the number of bytes taken from
what an earlier peek left. -/
def recv (s : State) (d : Nat) (n : Nat) (peek : Bool) : State × Out :=
  withSock s d fun fd x =>
    if x.st = .inProgress then (s, .r .panic)
    else if x.st ≠ .connected ∧ x.st ≠ .rdOnly then (s, .r (.err .ENOTCONN))
    else
      let k := min x.peek.length n
      let left := if peek then x.peek else x.peek.drop k
      if x.peek ≠ [] ∧ n - k = 0 then (s.setH fd.h { x with peek := left }, { ret := .ok k, bytes := x.peek.take k })
      else
        match x.info with
        | none => (s, .r .panic)
        | some i =>
          match i.recv with
          | none => (s, .r .panic)
          | some p =>
            match (s.pipes p).readNow (n - k) fd.nb with
            | (p', .ok v, bs) =>
              ((s.setP p p').setH fd.h { x with peek := if peek then left ++ bs else left },
                { ret := .ok (k + v), bytes := x.peek.take k ++ bs })
            | (_, r, _) =>
              if k ≠ 0 then (s.setH fd.h { x with peek := left }, { ret := .ok k, bytes := x.peek.take k })
              else (s, .r r)

/-- The state part of `_cleanup_socket_inner_helper`, `/repo/src/safeposix/syscalls/net_calls.rs` 2751-2791. -/
def shutState (st : ConnState) (how : Int) : Option ConnState :=
  if how = 0 then some (if st = .rdOnly then .notConnected else .wrOnly)
  else if how = 1 then some (if st = .wrOnly then .notConnected else .rdOnly)
  else if how = 2 then some .notConnected
  else none

/-- `netshutdown_syscall`, `/repo/src/safeposix/syscalls/net_calls.rs` 2625-2651, 2820-2844: `SHUT_RDWR` takes the descriptor out
of the table, without the work of `close`. -/
def shutdown (s : State) (d : Nat) (how : Int) : State × Out :=
  if how ≠ 0 ∧ how ≠ 1 ∧ how ≠ 2 then (s, .r (.err .EINVAL))
  else
    withSock s d fun fd x =>
      match shutState x.st how with
      | none => (s, .r (.err .EINVAL))
      | some st =>
        let s1 := s.setH fd.h { x with st := st }
        (if how = 2 then s1.setFd d none else s1, .r (.ok 0))

/-- One more reference to an end of a pipe, if there is one. -/
def bumpEnd (s : State) (e : End) : Option Nat → State
  | none => s
  | some p => s.setP p ((s.pipes p).incr e)

/-- Another reference to the pipes of a handle, `/repo/src/safeposix/syscalls/fs_calls.rs` 3486-3493. -/
def bumpPipes (s : State) (x : Handle) : State :=
  match x.info with
  | none => s
  | some i => bumpEnd (bumpEnd s .write i.send) .read i.recv

/-- `_dup2_helper` on a socket, `/repo/src/safeposix/syscalls/fs_calls.rs` 3478-3527: the inode gets no reference. -/
def dup (s : State) (d d' : Nat) : State × Out :=
  withSock s d fun fd x =>
    if s.fds d' ≠ none then (s, .r (.err .ENFILE))
    else ((bumpPipes s x).setFd d' (some fd), .r (.ok d'))

/-- One descriptor copied by `fork_syscall`, `/repo/src/safeposix/syscalls/sys_calls.rs` 248-282. -/
def forkFd (s : State) (d d' : Nat) : State × Out :=
  withSock s d fun fd x =>
    if s.fds d' ≠ none then (s, .r (.err .ENFILE))
    else
      match x.info with
      | none => (s.setFd d' (some fd), .r (.ok d'))
      | some i =>
        match bumpInode s.fs i.inode with
        | none => (s, .r .panic)
        | some fs1 => ({ bumpPipes s x with fs := fs1 }.setFd d' (some fd), .r (.ok d'))

/-- One reference less to an end of a pipe, if there is one. -/
def dropEnd (s : State) (e : End) : Option Nat → State
  | none => s
  | some p => s.setP p (decrWrap (s.pipes p) e)

/-- The pipe, unless it has no references left. -/
def keepOpen (s : State) : Option Nat → Option Nat
  | none => none
  | some p => if (s.pipes p).isClosed then none else some p

/-- One reference less to the pipes of a handle; a pipe without references is forgotten,
`/repo/src/safeposix/syscalls/fs_calls.rs` 3626-3642. -/
def dropPipes (s : State) (h : Nat) (x : Handle) (i : Info) : State :=
  let s1 := dropEnd s .write i.send
  let s2 := dropEnd s1 .read i.recv
  s2.setH h { x with info := some { i with send := keepOpen s1 i.send, recv := keepOpen s2 i.recv } }

/-- One reference less to the inode, `/repo/src/safeposix/syscalls/fs_calls.rs` 3646-3664; `none` is a panic. -/
def dropInode (fs : Fs) (i : Nat) (la : Option Str) (cwd : Str) : Option Fs :=
  match fs.inodes i with
  | none => none
  | some nd =>
    if nd.isSock then
      if nd.ref = 0 then none
      else if nd.ref = 1 ∧ nd.link = 0 then
        match la with
        | none => none
        | some a => some { fs.set i none with dom := fs.dom.filter (· ≠ pathOf cwd a) }
      else some (fs.set i (some { nd with ref := nd.ref - 1 }))
    else some fs

/-- `_close_helper_inner` on a unix socket, `/repo/src/safeposix/syscalls/fs_calls.rs` 3595-3667. -/
def close (s : State) (d : Nat) (cwd : Str) : State × Out :=
  withSock s d fun fd x =>
    match x.info with
    | none => (s.setFd d none, .r (.ok 0))
    | some i =>
      let s1 := dropPipes s fd.h x i
      match dropInode s.fs i.inode x.laddr cwd with
      | none => (s1, .r .panic)
      | some fs1 => ({ s1 with fs := fs1 }.setFd d none, .r (.ok 0))

/-- `socketpair_syscall`, `/repo/src/safeposix/syscalls/net_calls.rs` 5110-5216. -/
def socketpair (s : State) (d d' : Nat) (nb : Bool) (cwd : Str) : State × Out :=
  if s.fds d ≠ none ∨ s.fds d' ≠ none ∨ d = d' then (s, .r (.err .ENFILE))
  else
    let a := s.nh
    let b := s.nh + 1
    let s1 := { s with
      handles := upd (upd s.handles a {}) b {}, nh := s.nh + 2
      fds := upd (upd s.fds d (some { h := a, nb := nb })) d' (some { h := b, nb := nb }) }
    let s2 := autoBind (autoBind s1 a cwd) b cwd
    let x := s2.handles a
    let y := s2.handles b
    match x.info, y.info with
    | some i, some j =>
      match bumpInode s2.fs i.inode with
      | none => (s2, .r .panic)
      | some fs1 =>
        match bumpInode fs1 j.inode with
        | none => (s2, .r .panic)
        | some fs2 =>
          let p := s2.np
          let q := s2.np + 1
          let x' := { x with raddr := y.laddr, info := some { i with send := some p, recv := some q }, st := .connected }
          let y' := { y with raddr := x.laddr, info := some { j with send := some q, recv := some p }, st := .connected }
          ({ s2 with
              fs := fs2, handles := upd (upd s2.handles a x') b y'
              pipes := upd (upd s2.pipes p (Pipe.new udsockCapacity)) q (Pipe.new udsockCapacity), np := s2.np + 2 },
            .r (.ok 0))
    | _, _ => (s2, .r .panic)

/-- The calls.  `fsys` stands for any other calls changing the file system, `setNb` for `fcntl`/`ioctl` setting or clearing
`O_NONBLOCK`. -/
inductive Op
  | socket (d : Nat) (nb : Bool)
  | bind (d : Nat) (cwd a : Str)
  | getsockname (d : Nat)
  | getpeername (d : Nat)
  | listen (d : Nat)
  | connect (d : Nat) (cwd a : Str)
  | accept (d : Nat) (new : Option Nat) (cwd : Str)
  | send (d : Nat) (data : List UInt8)
  | writev (d : Nat) (iovs : List (List UInt8))
  | recv (d n : Nat) (peek : Bool)
  | shutdown (d : Nat) (how : Int)
  | dup (d d' : Nat)
  | forkFd (d d' : Nat)
  | close (d : Nat) (cwd : Str)
  | socketpair (d d' : Nat) (nb : Bool) (cwd : Str)
  | setNb (d : Nat) (nb : Bool)
  | fsys (fs : Fs)

/-- One call. -/
def step (s : State) : Op → State × Out
  | .socket d nb => socket s d nb
  | .bind d cwd a => bind s d cwd a
  | .getsockname d => getsockname s d
  | .getpeername d => getpeername s d
  | .listen d => listen s d
  | .connect d cwd a => connect s d cwd a
  | .accept d new cwd => accept s d new cwd
  | .send d data => send s d data
  | .writev d iovs => writev s d iovs
  | .recv d n peek => recv s d n peek
  | .shutdown d how => shutdown s d how
  | .dup d d' => dup s d d'
  | .forkFd d d' => forkFd s d d'
  | .close d cwd => close s d cwd
  | .socketpair d d' nb cwd => socketpair s d d' nb cwd
  | .setNb d nb => withSock s d fun fd _ => (s.setFd d (some { fd with nb := nb }), .r (.ok 0))
  | .fsys fs => ({ s with fs := fs }, .r (.ok 0))

end Verif.UnixSock
