import Verif.Ports

/-!
# Internet sockets

Model of the `AF_INET`/`AF_INET6` branches of the socket calls in `/repo/src/safeposix/syscalls/net_calls.rs`, on top of the
port table of `Ports`.  The host's sockets are outside: what the host answers to a call is an argument of the operation.

Simplifications: one call at a time, one descriptor table (`dup` stands for every way of sharing a socket); the host never
refuses to make a socket or to set `SO_REUSEPORT`; host errors have known numbers unless an argument says otherwise;
`listening_port_set`, `rawfd`, `socket_options` other than `SO_REUSEPORT` and the pending error are left out;
`pending_conn_table` only records which listening addresses have an entry, since nothing in the code ever adds a connection to
one; `select` and `poll` do not change a socket's state (they deadlock on a pending connection that the host reports as made,
`/repo/src/safeposix/syscalls/net_calls.rs` 3663-3688, see `Select`), so they are left out; a blocking call the host answers with EAGAIN is `blocked`, whatever the number of repetitions.
-/

namespace Verif.InetSock

open Verif.Ports (Addr PType Net)

/-- `ConnState`, `/repo/src/safeposix/syscalls/net_constants.rs`. -/
inductive ConnState
  | notConnected | connected | rdOnly | wrOnly | listen | inProgress
  deriving DecidableEq, Repr

/-- An address and a port. -/
abbrev SA := Addr × Nat

/-- What the calls use of `SocketHandle`, `/repo/src/safeposix/net.rs` 121-137.  `inner` is the number of the host's socket. -/
structure Sock where
  ty : PType
  reuse : Bool := false
  st : ConnState := .notConnected
  laddr : Option SA := none
  raddr : Option SA := none
  inner : Option Nat := none
  peek : List UInt8 := []
  deriving DecidableEq, Repr

/-- `SocketDesc`: the handle and the two flags; `/repo/src/safeposix/cage.rs`. -/
structure Desc where
  h : Nat
  nb : Bool
  clo : Bool
  deriving DecidableEq, Repr

/-- Constants: addresses of the machine (`NET_DEVICE_IPLIST`) and size of the descriptor table (`MAXFD`). -/
structure Env where
  devs : List Addr
  nfd : Nat

/-- Port table, descriptor table, sockets, listening addresses with an entry in `pending_conn_table`. -/
structure State where
  net : Net
  tab : Nat → Option Desc
  socks : Nat → Option Sock
  ns : Nat
  nhost : Nat
  pend : List (SA × PType)

/-- Before any call. -/
def init : State :=
  { net := .init, tab := fun _ => none, socks := fun _ => none, ns := 0, nhost := 0, pend := [] }

/-- What a call gives: return value, bytes stored for the caller, address stored; what was passed to the host to be sent
(host socket, bytes, destination if one was named) and what the host handed over (host socket, bytes). -/
structure Out where
  ret : Ret
  bytes : List UInt8 := []
  addr : Option SA := none
  sent : Option (Nat × List UInt8 × Option SA) := none
  got : Option (Nat × List UInt8) := none
  deriving DecidableEq, Repr

def Out.r (r : Ret) : Out := { ret := r }

/-- Answer of the host to `connect`. -/
inductive HConn
  | ok | inProgress | fail (e : Errno)
  deriving DecidableEq, Repr

/-- Answer of the host to `accept`: a connection from an address, or an error. -/
inductive HAcc
  | conn (peer : SA) | fail (e : Errno)
  deriving DecidableEq, Repr

/-- Answer of the host to `sendto`. -/
inductive HSend
  | ok (n : Nat) | fail (e : Errno)
  deriving DecidableEq, Repr

/-- Answer of the host to `recvfrom`: what is there (cut to the size of the buffer) and who sent it, or an error. -/
inductive HRecv
  | ok (bs : List UInt8) (src : SA) | fail (e : Errno)
  deriving DecidableEq, Repr

/-- The calls.  Arguments starting with `h` are the host's answers; `none` is success where the answer is `Option Errno`. -/
inductive Op
  | socket (v6 tcp nb clo : Bool)
  | setReuse (fd : Nat)
  | dup (fd : Nat)
  | bind (fd : Nat) (to : SA) (hb : Option Errno)
  | connect (fd : Nat) (to : SA) (hb : Option Errno) (hc : HConn)
  | listen (fd : Nat) (hb hl stale : Option Errno)
  | accept (fd : Nat) (ha : HAcc)
  | send (fd : Nat) (data : List UInt8) (hb : Option Errno) (hs : HSend)
  | sendto (fd : Nat) (data : List UInt8) (to : SA) (hb : Option Errno) (hs : HSend)
  | recv (fd n : Nat) (peek : Bool) (fam : Option Bool) (rdy : Bool) (hb : Option Errno) (hr : HRecv)
  | shutdown (fd : Nat) (how : Int) (hsd : Option Errno)
  | close (fd : Nat)
  deriving Repr

def State.setS (s : State) (h : Nat) (k : Sock) : State := { s with socks := upd s.socks h (some k) }

/-- The lowest free descriptor, `get_next_fd(None)`, `/repo/src/safeposix/cage.rs` 127-155. -/
def lowest (e : Env) (s : State) : Option Nat := (List.range e.nfd).find? (fun i => (s.tab i).isNone)

/-- `get_filedescriptor(fd).unwrap()` and the match on the descriptor, common to the calls. -/
def withSock (e : Env) (s : State) (fd : Nat) (f : Desc → Sock → State × Out) : State × Out :=
  if fd < e.nfd then
    match s.tab fd with
    | none => (s, .r (.err .EBADF))
    | some d =>
      match s.socks d.h with
      | none => (s, .r .panic)
      | some k => f d k
  else (s, .r .panic)

/-- `socket_syscall` with `_socket_initializer` and `_socket_inserter`, `/repo/src/safeposix/syscalls/net_calls.rs` 66-108,
182-311, for the two kinds of internet socket. -/
def socket (e : Env) (s : State) (v6 tcp nb clo : Bool) : State × Out :=
  match lowest e s with
  | none => (s, .r (.err .ENFILE))
  | some fd =>
    ({ s with
        tab := upd s.tab fd (some { h := s.ns, nb := nb, clo := clo })
        socks := upd s.socks s.ns (some { ty := ⟨v6, tcp⟩ })
        ns := s.ns + 1 }, .r (.ok fd))

/-- `setsockopt(SOL_SOCKET, SO_REUSEPORT, 1)`, `/repo/src/safeposix/syscalls/net_calls.rs`. -/
def setReuse (e : Env) (s : State) (fd : Nat) : State × Out :=
  withSock e s fd fun d k => (s.setS d.h { k with reuse := true }, .r (.ok 0))

/-- `dup_syscall`, `/repo/src/safeposix/syscalls/fs_calls.rs` 3290-3305: the same socket, close-on-exec off. -/
def dup (e : Env) (s : State) (fd : Nat) : State × Out :=
  withSock e s fd fun d _ =>
    match lowest e s with
    | none => (s, .r (.err .ENFILE))
    | some fd' => ({ s with tab := upd s.tab fd' (some { d with clo := false }) }, .r (.ok fd'))

/-- `force_innersocket`, `/repo/src/safeposix/syscalls/net_calls.rs` 314-353. -/
def force (s : State) (k : Sock) : State × Sock :=
  match k.inner with
  | some _ => (s, k)
  | none => ({ s with nhost := s.nhost + 1 }, { k with inner := some s.nhost })

/-- What the host's answer makes of a call that returns 0 on success. -/
def hret : Option Errno → Ret
  | none => .ok 0
  | some e => .err e

/-- `bind_inner_socket` and `bind_inner_socket_inet`, `/repo/src/safeposix/syscalls/net_calls.rs` 416-458, 568-617.  `pre`:
the port is already reserved.  The address is recorded whatever the outcome. -/
def bindInner (e : Env) (s : State) (k : Sock) (to : SA) (pre : Bool) (hb : Option Errno) : State × Sock × Ret :=
  if to.1.v6 ≠ k.ty.v6 then (s, k, .err .EINVAL)
  else if k.laddr.isSome then (s, k, .err .EINVAL)
  else
    let f := force s k
    if pre then (f.1, { f.2 with laddr := some to }, hret hb)
    else
      match Ports.reserve e.devs f.1.net to.1 to.2 k.ty k.reuse with
      | (n', .ok p) => ({ f.1 with net := n' }, { f.2 with laddr := some (to.1, p.toNat) }, hret hb)
      | (n', r) => ({ f.1 with net := n' }, { f.2 with laddr := some to }, r)

/-- `bind_syscall`, `/repo/src/safeposix/syscalls/net_calls.rs` 406-414. -/
def bind (e : Env) (s : State) (fd : Nat) (to : SA) (hb : Option Errno) : State × Out :=
  withSock e s fd fun d k =>
    let b := bindInner e s k to false hb
    (b.1.setS d.h b.2.1, .r b.2.2)

/-- The unspecified address of a family. -/
def wild (v6 : Bool) : Addr := ⟨v6, 0⟩

/-- `assign_new_addr` for a socket without an address, `/repo/src/safeposix/syscalls/net_calls.rs` 691-788: the unspecified
address and a fresh port.  The callers test bit `SO_REUSEPORT` of the protocol number, which is never set. -/
def assignAddr (e : Env) (s : State) (k : Sock) (v6 : Bool) : State × (Errno ⊕ SA) ⊕ Unit :=
  if v6 ≠ k.ty.v6 then .inl (s, .inl .EINVAL)
  else
    match Ports.reserve e.devs s.net (wild v6) 0 k.ty false with
    | (n', .ok p) => .inl ({ s with net := n' }, .inr (wild v6, p.toNat))
    | (n', .err er) => .inl ({ s with net := n' }, .inl er)
    | _ => .inr ()

/-- `_implicit_bind`, `/repo/src/safeposix/syscalls/net_calls.rs` 118-153.  The second part of the result is `none` when
nothing went wrong; `true` beside an error says that it did not come from the host. -/
def implicitBind (e : Env) (s : State) (k : Sock) (v6 : Bool) (hb : Option Errno) :
    State × Sock × Option (Ret × Bool) :=
  match k.laddr with
  | some _ => (s, k, none)
  | none =>
    match assignAddr e s k v6 with
    | .inr () => (s, k, some (.panic, true))
    | .inl (s', .inl er) => (s', k, some (.err er, true))
    | .inl (s', .inr a) =>
      let b := bindInner e s' k a true hb
      match b.2.2 with
      | .ok _ => (b.1, b.2.1, none)
      | r => (b.1, b.2.1, some (r, false))

/-- `connect_udp`, `/repo/src/safeposix/syscalls/net_calls.rs` 945-984: the remote address is recorded first. -/
def connectUdp (e : Env) (s : State) (d : Desc) (k : Sock) (to : SA) (hb : Option Errno) : State × Out :=
  let b := implicitBind e s { k with raddr := some to } k.ty.v6 hb
  (b.1.setS d.h b.2.1, .r (match b.2.2 with | none => .ok 0 | some (r, _) => r))

/-- The last part of `connect_tcp_inet`, `/repo/src/safeposix/syscalls/net_calls.rs` 1165-1220: `connect` of the host. -/
def connectHost (s : State) (d : Desc) (k : Sock) (to : SA) (hc : HConn) : State × Out :=
  match k.inner with
  | none => (s.setS d.h k, .r .panic)
  | some _ =>
    match hc with
    | .ok => (s.setS d.h { k with st := .connected, raddr := some to }, .r (.ok 0))
    | .inProgress => (s.setS d.h { k with st := .inProgress, raddr := some to }, .r (.err .EINPROGRESS))
    | .fail er => (s.setS d.h k, .r (.err er))

/-- `connect_tcp` and `connect_tcp_inet`, `/repo/src/safeposix/syscalls/net_calls.rs` 996-1025, 1112-1220.  A socket without
an address gets a port, but the address is recorded only if the host's `bind` fails. -/
def connectTcp (e : Env) (s : State) (d : Desc) (k : Sock) (to : SA) (hb : Option Errno) (hc : HConn) : State × Out :=
  if k.st ≠ .notConnected then (s, .r (.err .EISCONN))
  else
    match k.laddr with
    | some _ => connectHost s d k to hc
    | none =>
      let f := force s k
      match assignAddr e f.1 f.2 k.ty.v6 with
      | .inr () => (f.1.setS d.h f.2, .r .panic)
      | .inl (s', .inl er) => (s'.setS d.h f.2, .r (.err er))
      | .inl (s', .inr a) =>
        match hb with
        | some er => (s'.setS d.h { f.2 with laddr := some a }, .r (.err er))
        | none => connectHost s' d f.2 to hc

/-- `connect_syscall`, `/repo/src/safeposix/syscalls/net_calls.rs` 877-931. -/
def connect (e : Env) (s : State) (fd : Nat) (to : SA) (hb : Option Errno) (hc : HConn) : State × Out :=
  withSock e s fd fun d k =>
    if to.1.v6 ≠ k.ty.v6 then (s, .r (.err .EINVAL))
    else if k.ty.tcp then connectTcp e s d k to hb hc
    else connectUdp e s d k to hb

/-- The last part of `listen_syscall`, `/repo/src/safeposix/syscalls/net_calls.rs` 2520-2576. -/
def listenHost (s : State) (d : Desc) (k : Sock) (hl : Option Errno) : State × Out :=
  match k.laddr with
  | none => (s.setS d.h k, .r .panic)
  | some a =>
    match k.inner with
    | none => (s.setS d.h k, .r .panic)
    | some _ =>
      match hl with
      | some er => (s.setS d.h k, .r (.err er))
      | none =>
        ({ s with pend := (a, k.ty) :: s.pend }.setS d.h { k with st := .listen }, .r (.ok 0))

/-- `listen_syscall`, `/repo/src/safeposix/syscalls/net_calls.rs` 2432-2595.  If no port could be had for an unbound socket
the error reported is whatever number the last failing host call left behind (`stale`; `none`: a number the code does not
know, which is a panic). -/
def listen (e : Env) (s : State) (fd : Nat) (hb hl stale : Option Errno) : State × Out :=
  withSock e s fd fun d k =>
    match k.st with
    | .listen => (s, .r (.ok 0))
    | .connected => (s, .r (.err .EOPNOTSUPP))
    | .rdOnly => (s, .r (.err .EOPNOTSUPP))
    | .wrOnly => (s, .r (.err .EOPNOTSUPP))
    | .inProgress => (s, .r (.err .EOPNOTSUPP))
    | .notConnected =>
      if k.ty.tcp then
        let b := implicitBind e s k k.ty.v6 hb
        match b.2.2 with
        | none => listenHost b.1 d b.2.1 hl
        | some (r, false) => (b.1.setS d.h b.2.1, .r r)
        | some (_, true) => (b.1.setS d.h b.2.1, .r (match stale with | some er => .err er | none => .panic))
      else (s, .r (.err .EOPNOTSUPP))

/-- `accept_inet` for a listening socket, `/repo/src/safeposix/syscalls/net_calls.rs` 3145-3314.  The connection was taken
from the host before a port is reserved for it; without a port it is dropped. -/
def acceptInet (e : Env) (s : State) (d : Desc) (k : Sock) (newfd : Nat) (ha : HAcc) : State × Out :=
  match k.laddr with
  | none => (s, .r .panic)
  | some a =>
    if (a, k.ty) ∉ s.pend then (s, .r .panic)
    else
      match k.inner with
      | none => (s, .r .panic)
      | some _ =>
        match ha with
        | .fail er => if d.nb = false ∧ er = .EAGAIN then (s, .r .blocked) else (s, .r (.err er))
        | .conn peer =>
          match Ports.reserve e.devs s.net a.1 0 k.ty false with
          | (n', .ok p) =>
            ({ s with
                net := n'
                tab := upd s.tab newfd (some { h := s.ns, nb := d.nb, clo := d.clo })
                socks := upd s.socks s.ns
                  (some { ty := k.ty, st := .connected, laddr := some (a.1, p.toNat), raddr := some peer, inner := some s.nhost })
                ns := s.ns + 1
                nhost := s.nhost + 1 }, { ret := .ok newfd, addr := some peer })
          | (n', r) => ({ s with net := n', nhost := s.nhost + 1 }, .r r)

/-- `accept_syscall`, `/repo/src/safeposix/syscalls/net_calls.rs` 2915-2982: with no free descriptor it returns the number it
was called with. -/
def accept (e : Env) (s : State) (fd : Nat) (ha : HAcc) : State × Out :=
  withSock e s fd fun d k =>
    match lowest e s with
    | none => (s, .r (.ok fd))
    | some newfd =>
      if !k.ty.tcp then (s, .r (.err .EOPNOTSUPP))
      else if k.st ≠ .listen then (s, .r (.err .EINVAL))
      else acceptInet e s d k newfd ha

/-- The return value of a send. -/
def sret : HSend → Ret
  | .ok n => .ok n
  | .fail e => .err e

/-- The host's `sendto`, with what was passed to it. -/
def hostSend (s : State) (d : Desc) (k : Sock) (data : List UInt8) (to : Option SA) (hs : HSend) : State × Out :=
  match k.inner with
  | none => (s.setS d.h k, .r .panic)
  | some i => (s.setS d.h k, { ret := sret hs, sent := some (i, data, to) })

/-- `sendto_syscall` with a destination that is not the unspecified address with port 0,
`/repo/src/safeposix/syscalls/net_calls.rs` 1359-1496. -/
def sendtoAddr (e : Env) (s : State) (fd : Nat) (data : List UInt8) (to : SA) (hb : Option Errno) (hs : HSend) :
    State × Out :=
  withSock e s fd fun d k =>
    if to.1.v6 ≠ k.ty.v6 then (s, .r (.err .EINVAL))
    else if k.st ≠ .notConnected then (s, .r (.err .EISCONN))
    else if k.ty.tcp then (s, .r (.err .EISCONN))
    else
      let b := implicitBind e s k to.1.v6 hb
      match b.2.2 with
      | none => hostSend b.1 d b.2.1 data (some to) hs
      | some (r, _) => (b.1.setS d.h b.2.1, .r r)

/-- The unspecified address with port 0. -/
def nowhere (a : SA) : Bool := a.2 == 0 && a.1.unspec

/-- `send_syscall`, `/repo/src/safeposix/syscalls/net_calls.rs` 1593-1821.  On a UDP socket it goes on to `sendto` with the
recorded address; if that is the unspecified address with port 0, `sendto` goes back to `send` without end, and the stack
overflows. -/
def send (e : Env) (s : State) (fd : Nat) (data : List UInt8) (hb : Option Errno) (hs : HSend) : State × Out :=
  withSock e s fd fun d k =>
    if k.ty.tcp then
      if k.st ≠ .connected ∧ k.st ≠ .wrOnly then (s, .r (.err .ENOTCONN))
      else hostSend s d k data none hs
    else
      match k.raddr with
      | none => (s, .r (.err .ENOTCONN))
      | some to => if nowhere to then (s, .r .panic) else sendtoAddr e s fd data to hb hs

/-- `sendto_syscall`, `/repo/src/safeposix/syscalls/net_calls.rs` 1346-1496. -/
def sendto (e : Env) (s : State) (fd : Nat) (data : List UInt8) (to : SA) (hb : Option Errno) (hs : HSend) : State × Out :=
  if nowhere to then send e s fd data hb hs else sendtoAddr e s fd data to hb hs

/-- The part of `recv_common_inner_tcp` after the connection check, `/repo/src/safeposix/syscalls/net_calls.rs` 1927-2113:
first what was peeked, then the host. -/
def recvTcp (s : State) (d : Desc) (k : Sock) (n : Nat) (peek : Bool) (hr : HRecv) : State × Out :=
  let got := k.peek.take n
  let k1 := if peek then k else { k with peek := k.peek.drop n }
  let left := n - got.length
  if k.peek ≠ [] ∧ left = 0 then (s.setS d.h k1, { ret := .ok got.length, bytes := got })
  else
    match k.inner with
    | none => (s.setS d.h k1, .r .panic)
    | some i =>
      match hr with
      | .fail er =>
        if left ≠ n then (s.setS d.h k1, { ret := .ok got.length, bytes := got })
        else if d.nb = false ∧ er = .EAGAIN then (s.setS d.h k1, .r .blocked)
        else (s.setS d.h k1, .r (.err er))
      | .ok bs src =>
        let new := bs.take left
        let k2 := if peek then { k1 with peek := k1.peek ++ new } else k1
        (s.setS d.h k2,
          { ret := .ok (got.length + new.length : Nat), bytes := got ++ new, addr := some src, got := some (i, new) })

/-- `recv_common_inner_udp`, `/repo/src/safeposix/syscalls/net_calls.rs` 2117-2204.  `fam` is the family of the address the
caller passed to be filled in, if any.  The flags are not looked at.  The host's socket is never connected, so any sender's
datagram is taken. -/
def recvUdp (e : Env) (s : State) (d : Desc) (k : Sock) (n : Nat) (fam : Option Bool) (hb : Option Errno) (hr : HRecv) :
    State × Out :=
  let b := implicitBind e s k (fam.getD false) hb
  match b.2.2 with
  | some (r, _) => (b.1.setS d.h b.2.1, .r r)
  | none =>
    match b.2.1.inner with
    | none => (b.1.setS d.h b.2.1, .r .panic)
    | some i =>
      match hr with
      | .fail er =>
        if d.nb = false ∧ er = .EAGAIN then (b.1.setS d.h b.2.1, .r .blocked) else (b.1.setS d.h b.2.1, .r (.err er))
      | .ok bs src =>
        (b.1.setS d.h b.2.1,
          { ret := .ok (bs.take n).length, bytes := bs.take n, addr := some src, got := some (i, bs.take n) })

/-- The connection check, `/repo/src/safeposix/syscalls/net_calls.rs` 1897-1907: a pending connection the host reports as made
is connected.  `none` is the unwrap of a missing host socket. -/
def settle (k : Sock) (rdy : Bool) : Option Sock :=
  if k.st = .inProgress then
    match k.inner with
    | none => none
    | some _ => some (if rdy then { k with st := .connected } else k)
  else some k

/-- `recv_common`, `recv_common_inner`, `/repo/src/safeposix/syscalls/net_calls.rs` 1827-1884, 1886-1925, 2206-2225. -/
def recv (e : Env) (s : State) (fd n : Nat) (peek : Bool) (fam : Option Bool) (rdy : Bool) (hb : Option Errno) (hr : HRecv) :
    State × Out :=
  withSock e s fd fun d k =>
    if k.ty.tcp then
      match settle k rdy with
      | none => (s, .r .panic)
      | some k' =>
        if k'.st ≠ .connected ∧ k'.st ≠ .rdOnly then (s.setS d.h k', .r (.err .ENOTCONN))
        else recvTcp s d k' n peek hr
    else recvUdp e s d k n fam hb hr

/-- The state after a shutdown, `/repo/src/safeposix/syscalls/net_calls.rs` 2735-2760; 0 is `SHUT_RD`, 1 `SHUT_WR`, 2
`SHUT_RDWR`. -/
def shutState (st : ConnState) (how : Int) : ConnState :=
  if how = 0 then (if st = .rdOnly then .notConnected else .wrOnly)
  else if how = 1 then (if st = .wrOnly then .notConnected else .rdOnly)
  else .notConnected

/-- Whether a shutdown gives back the port, `/repo/src/safeposix/syscalls/net_calls.rs` 2676-2698. -/
def shutReleases (st : ConnState) (how : Int) : Bool :=
  if how = 0 then st = .rdOnly else if how = 1 then st = .wrOnly else true

/-- Giving back the port, `/repo/src/safeposix/syscalls/net_calls.rs` 2709-2723.  `none`: nothing went wrong. -/
def giveBack (e : Env) (s : State) (k : Sock) : State × Sock × Option Ret :=
  match k.laddr with
  | none => (s, k, none)
  | some a =>
    match Ports.release e.devs s.net a.1 a.2 k.ty with
    | (n', .ok _) => ({ s with net := n' }, { k with laddr := none }, none)
    | (n', r) => ({ s with net := n' }, { k with laddr := none }, some r)

/-- Whether a descriptor still leads to the socket: the reference count of the `Arc`, `/repo/src/safeposix/net.rs` 138-146. -/
def refd (e : Env) (s : State) (h : Nat) : Bool :=
  (List.range e.nfd).any (fun i => match s.tab i with | some d => d.h == h | none => false)

/-- The socket disappears with its last descriptor: `Drop`, `/repo/src/safeposix/net.rs` 147-151, and
`_cleanup_socket_inner_helper(-1, false)`.  The result of giving back the port is ignored, except that a panic is one. -/
def dropIfLast (e : Env) (s : State) (h : Nat) (r : Ret) : State × Out :=
  if refd e s h then (s, .r r)
  else
    match s.socks h with
    | none => (s, .r r)
    | some k =>
      match k.inner with
      | none => ({ s with socks := upd s.socks h none }, .r r)
      | some _ =>
        let g := giveBack e s k
        ({ g.1 with socks := upd g.1.socks h none }, .r (if g.2.2 = some .panic then .panic else r))

/-- `netshutdown_syscall`, `_cleanup_socket`, `_cleanup_socket_inner_helper`,
`/repo/src/safeposix/syscalls/net_calls.rs` 2625-2844.  An error leaves the state of the connection as it was; shutting down
both directions removes the descriptor. -/
def shutdown (e : Env) (s : State) (fd : Nat) (how : Int) (hsd : Option Errno) : State × Out :=
  if fd < e.nfd then
    if how = 0 ∨ how = 1 ∨ how = 2 then
      withSock e s fd fun d k =>
        match k.inner, hsd with
        | some _, some er => (s, .r (.err er))
        | inner, _ =>
          let g := if inner.isSome ∧ shutReleases k.st how then giveBack e s k else (s, k, none)
          match g.2.2 with
          | some r => (g.1.setS d.h g.2.1, .r r)
          | none =>
            let s' := g.1.setS d.h { g.2.1 with st := shutState k.st how }
            if how = 2 then dropIfLast e { s' with tab := upd s'.tab fd none } d.h (.ok 0) else (s', .r (.ok 0))
    else (s, .r (.err .EINVAL))
  else (s, .r (.err .EBADF))

/-- `close_syscall` of a socket, `/repo/src/safeposix/syscalls/fs_calls.rs` 3560-3844. -/
def close (e : Env) (s : State) (fd : Nat) : State × Out :=
  withSock e s fd fun d _ => dropIfLast e { s with tab := upd s.tab fd none } d.h (.ok 0)

/-- One call. -/
def step (e : Env) (s : State) : Op → State × Out
  | .socket v6 tcp nb clo => socket e s v6 tcp nb clo
  | .setReuse fd => setReuse e s fd
  | .dup fd => dup e s fd
  | .bind fd to hb => bind e s fd to hb
  | .connect fd to hb hc => connect e s fd to hb hc
  | .listen fd hb hl stale => listen e s fd hb hl stale
  | .accept fd ha => accept e s fd ha
  | .send fd data hb hs => send e s fd data hb hs
  | .sendto fd data to hb hs => sendto e s fd data to hb hs
  | .recv fd n peek fam rdy hb hr => recv e s fd n peek fam rdy hb hr
  | .shutdown fd how hsd => shutdown e s fd how hsd
  | .close fd => close e s fd

end Verif.InetSock
