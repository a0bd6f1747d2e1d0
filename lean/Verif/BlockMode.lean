/-!
# Model: the blocking mode of an internet socket

Lind keeps `O_NONBLOCK` in every descriptor; the host keeps one mode per host socket, which all descriptors of a socket share.  Some
calls go by the flag, some by the host's mode, and two helpers change the host's mode on the way.  Several threads may be in calls.

`/repo/src/interface/comm.rs` 232-258 and 326-486 (host socket), `/repo/src/safeposix/syscalls/net_calls.rs` 64-95 (`socket`), 314-353
(`force_innersocket`), 945-985 and 1112-1220 (`connect`), 1370-1475 and 1605-1760 (`sendto`, `send`), 1836-2200 (`recv`), 2433-2590
(`listen`), 2939-3320 (`accept`), `/repo/src/safeposix/syscalls/fs_calls.rs` 3884-3930 (`fcntl`), 4041-4088 (`ioctl`).

Simplified: a host call has just one outcome when it can go on (`ready`), errors of the host are not modelled; no shutdown, no peeked
data, no cage that is being ended; UNIX sockets, which have no host socket, are in other modules.  The host socket waits at most a second in
a receive or accept (`SO_RCVTIMEO`, which on Linux a socket from `accept` inherits), and as long as it takes in a send or connect.  A
descriptor number stands for a number in a certain cage.
-/

namespace Verif.BlockMode

inductive Proto
  | tcp | udp
  deriving DecidableEq

/-- `ConnState`, `/repo/src/safeposix/syscalls/net_constants.rs` 392-399, without the half-closed states. -/
inductive Conn
  | apart | going | joined | listening
  deriving DecidableEq

/-- `SocketHandle`, `/repo/src/safeposix/net.rs` 121-140: protocol, whether `SOCK_NONBLOCK` was among the bits of `socktype`, the host
socket if there is one with its mode (`true`: not blocking), connection, whether there is a local address. -/
structure Handle where
  proto : Proto
  born : Bool
  host : Option Bool
  conn : Conn
  bound : Bool
  deriving DecidableEq

/-- `SocketDesc`, `/repo/src/safeposix/cage.rs` 77-83: the handle, and `O_NONBLOCK` among the flags. -/
structure Desc where
  h : Nat
  nb : Bool
  deriving DecidableEq

/-- The calls that may wait. -/
inductive Call
  | connect
  | send
  | recv
  /-- `accept`, with the number that the new descriptor gets -/
  | accept (d' : Nat)
  deriving DecidableEq

/-- A thread in such a call: the descriptor, its flag when the call was made (for the record only), the handle, how often the host was
asked, and how many seconds the call has waited there. -/
structure Pend where
  t : Nat
  d : Nat
  nb0 : Bool
  h : Nat
  call : Call
  tries : Nat
  secs : Nat
  deriving DecidableEq

structure St where
  hs : List Handle
  descs : Nat → Option Desc
  pend : List Pend

def St.init : St := { hs := [], descs := fun _ => none, pend := [] }

/-- What a call returns. -/
inductive Ans
  | done
  /-- `EAGAIN` -/
  | again
  /-- `EINPROGRESS` -/
  | inProgress
  /-- another error: `ENOTCONN`, `EISCONN`, `EINVAL`, `EOPNOTSUPP` -/
  | wrong
  | panic
  deriving DecidableEq

/-- A call has returned. -/
structure Note where
  t : Nat
  d : Nat
  /-- the flag of the descriptor when the call was made -/
  nb : Bool
  h : Nat
  proto : Proto
  call : Call
  ans : Ans
  tries : Nat
  secs : Nat
  deriving DecidableEq

inductive Act
  | socket (d : Nat) (p : Proto) (nb : Bool)
  | setfl (d : Nat) (nb : Bool)
  | fionbio (d : Nat) (nb : Bool)
  | copy (d d' : Nat)
  | close (d : Nat)
  | bind (d : Nat)
  | listen (d : Nat)
  /-- thread `t` makes a call; `est`: a connection that was under way is found to be there -/
  | begin (t d : Nat) (c : Call) (est : Bool)
  /-- the call that thread `t` is in asks the host once; or, in a send or connect that waits there, a second goes by -/
  | ask (t : Nat) (ready : Bool)

def upd {α : Type} (f : Nat → α) (i : Nat) (v : α) : Nat → α := fun j => if j = i then v else f j

/-- Some thread in a call has the entry of `d` in its descriptor table; all these calls keep it to their end
(`/repo/src/safeposix/syscalls/net_calls.rs` 881, 1361, 1597, 2218-2222, 2907-2930: also that of the new descriptor). -/
def St.busy (s : St) (d : Nat) : Bool := s.pend.any fun p => p.d == d || p.call == .accept d

/-- Some thread in a call keeps others from changing the handle: a send or connect has it for writing, an accept for reading
(`/repo/src/safeposix/syscalls/net_calls.rs` 892, 1371, 1606, 2940); a receive lets go of it between two questions to the host
(2079, 2190). -/
def St.locked (s : St) (h : Nat) : Bool := s.pend.any fun p => p.h == h && p.call != .recv

/-- The same for one that only reads it. -/
def St.lockedRead (s : St) (h : Nat) : Bool := s.pend.any fun p => p.h == h && (p.call == .send || p.call == .connect)

/-- `force_innersocket`, `/repo/src/safeposix/syscalls/net_calls.rs` 314-353, and `Socket::new`, `/repo/src/interface/comm.rs` 233-257: the
host socket is made with all bits of `socktype`. -/
def Handle.force (x : Handle) : Handle :=
  match x.host with
  | none => { x with host := some x.born }
  | some _ => x

/-- `_implicit_bind`, `/repo/src/safeposix/syscalls/net_calls.rs` 120-150, with `bind_inner_socket_inet` 566-600. -/
def Handle.bind (x : Handle) : Handle := if x.bound then x else { x.force with bound := true }

/-- `set_blocking` and `set_nonblocking` on the host socket if there is one, `/repo/src/interface/comm.rs` 392-398. -/
def Handle.mode (x : Handle) (nb : Bool) : Handle :=
  match x.host with
  | none => x
  | some _ => { x with host := some nb }

/-- `socket_syscall`, `/repo/src/safeposix/syscalls/net_calls.rs` 176-290, with `_socket_initializer` 65-95 and `mksockhandle` 1222-1245. -/
def socket (s : St) (d : Nat) (p : Proto) (nb : Bool) : Option St :=
  if s.busy d ∨ s.descs d ≠ none then none
  else some { s with hs := s.hs ++ [{ proto := p, born := nb, host := none, conn := .apart, bound := false }],
                     descs := upd s.descs d (some { h := s.hs.length, nb := nb }) }

/-- A call that changes the handle of `d`, when it gets its locks. -/
def onHandle (s : St) (d : Nat) (f : Handle → Handle) : Option St :=
  if s.busy d then none
  else
    match s.descs d with
    | none => some s
    | some e =>
      if s.locked e.h then none
      else
        match s.hs[e.h]? with
        | none => some s
        | some x => some { s with hs := s.hs.set e.h (f x) }

/-- `fcntl(d, F_SETFL, …)`, `/repo/src/safeposix/syscalls/fs_calls.rs` 3896-3923 and 3950-3965. -/
def setfl (s : St) (d : Nat) (nb : Bool) : Option St :=
  match onHandle s d (fun x => x.mode nb) with
  | none => none
  | some s' =>
    match s'.descs d with
    | none => some s'
    | some e => some { s' with descs := upd s'.descs d (some { e with nb := nb }) }

/-- `ioctl(d, FIONBIO, …)`, `/repo/src/safeposix/syscalls/fs_calls.rs` 4054-4088. -/
def fionbio (s : St) (d : Nat) (nb : Bool) : Option St :=
  match s.descs d with
  | none => if s.busy d then none else some s
  | some e => onHandle { s with descs := upd s.descs d (some { e with nb := nb }) } d (fun x => x.mode nb)

/-- `dup`, `dup2` onto a free number and the part of `fork` about one socket: `/repo/src/safeposix/syscalls/fs_calls.rs` 3477-3530,
`/repo/src/safeposix/syscalls/sys_calls.rs` 248-265.  The flags are copied. -/
def copy (s : St) (d d' : Nat) : Option St :=
  if s.busy d ∨ s.busy d' ∨ s.descs d' ≠ none then none
  else
    match s.descs d with
    | none => some s
    | some e => if s.locked e.h then none else some { s with descs := upd s.descs d' (some e) }

/-- `close`, `/repo/src/safeposix/syscalls/fs_calls.rs` 3595-3616; the host socket goes with the last descriptor, when nobody can see
it any more. -/
def close (s : St) (d : Nat) : Option St :=
  if s.busy d then none
  else
    match s.descs d with
    | none => some s
    | some e => if s.locked e.h then none else some { s with descs := upd s.descs d none }

/-- `bind`, `/repo/src/safeposix/syscalls/net_calls.rs` 629-660, for an address that can be had. -/
def bind (s : St) (d : Nat) : Option St := onHandle s d fun x => x.bind

/-- `listen`, `/repo/src/safeposix/syscalls/net_calls.rs` 2433-2590. -/
def listen (s : St) (d : Nat) : Option St :=
  onHandle s d fun x => if x.conn = .apart ∧ x.proto = .tcp then { x.bind with conn := .listening } else x

/-- What a call does before it asks the host: it returns, or goes on, with the handle changed.
`/repo/src/safeposix/syscalls/net_calls.rs` 945-985 (`connect_udp`), 1119-1165 (`connect_tcp_inet`), 1404-1440 (`sendto`, UDP), 1699-1715
(`send`, TCP), 1896-1922 (`recv`, TCP), 2128-2150 (`recv`, UDP), 3152-3173 (`accept_inet`). -/
def start (x : Handle) (c : Call) (est : Bool) : Handle × Option Ans :=
  match c, x.proto with
  | .connect, .udp => (x.bind, some .done)
  | .connect, .tcp =>
    if x.conn ≠ .apart then (x, some .wrong)
    else (if x.bound then x else x.force, none)
  | .send, .udp => (x.bind, none)
  | .send, .tcp => if x.conn = .joined then (x, none) else (x, some .wrong)
  | .recv, .udp => (x.bind, none)
  | .recv, .tcp =>
    if x.conn = .going ∧ est then ({ x with conn := .joined }, none)
    else if x.conn = .joined then (x, none)
    else (x, some .wrong)
  | .accept _, .udp => (x, some .wrong)
  | .accept _, .tcp => if x.conn = .listening then (x, none) else (x, some .wrong)

/-- Whether a call has to wait for the handle. -/
def St.held (s : St) (h : Nat) : Call → Bool
  | .accept _ => s.lockedRead h
  | _ => s.locked h

/-- Whether the number for the new descriptor is not one that `get_next_fd` gives out (`/repo/src/safeposix/cage.rs` 127-160). -/
def St.taken (s : St) (d : Nat) : Call → Bool
  | .accept d' => d' == d || s.busy d' || (s.descs d').isSome
  | _ => false

/-- A thread makes a call: it takes the entry of the descriptor and the handle. -/
def begin' (s : St) (t d : Nat) (c : Call) (est : Bool) : Option (St × Option Note) :=
  if s.busy d ∨ s.pend.any (·.t == t) then none
  else
    match s.descs d with
    | none => some (s, none)
    | some e =>
      if s.held e.h c || s.taken d c then none
      else
        match s.hs[e.h]? with
        | none => some (s, none)
        | some x =>
          match start x c est with
          | (y, some a) =>
            some ({ s with hs := s.hs.set e.h y },
              some { t := t, d := d, nb := e.nb, h := e.h, proto := x.proto, call := c, ans := a, tries := 0, secs := 0 })
          | (y, none) =>
            some ({ s with hs := s.hs.set e.h y,
                           pend := { t := t, d := d, nb0 := e.nb, h := e.h, call := c, tries := 0, secs := 0 } :: s.pend }, none)

/-- What one question to the host leads to. -/
inductive Went
  /-- the call returns -/
  | ret (a : Ans)
  /-- the call goes on -/
  | stay

/-- `libc::recvfrom` and `libc::accept` on a host socket of mode `m`: whether there was something, and the seconds spent. -/
def hostTake (m ready : Bool) : Bool × Nat := if ready then (true, 0) else if m then (false, 0) else (false, 1)

/-- One question of a call to the host: the handle afterwards, what the call does then, and the seconds spent.  `nb`: the flag of the
descriptor.
`connect` 1160-1218, `sendto` 1441-1465, `send` 1716-1745, `recv` 2027-2096 and 2152-2200, `accept` 3195-3273, all in
`/repo/src/safeposix/syscalls/net_calls.rs`; `recvfrom`, `recvfrom_nonblocking`, `accept`, `nonblock_accept`,
`/repo/src/interface/comm.rs` 326-390 and 400-486. -/
def question (x : Handle) (c : Call) (nb ready : Bool) : Handle × Went × Nat :=
  match x.host with
  | none => (x, .ret .panic, 0)
  | some m =>
    match c, x.proto with
    | .connect, _ =>
      if ready then ({ x with conn := .joined }, .ret .done, 0)
      else if m then ({ x with conn := .going }, .ret .inProgress, 0)
      else (x, .stay, 1)
    | .send, _ =>
      if ready then (x, .ret .done, 0)
      else if m then (x, .ret .again, 0)
      else (x, .stay, 1)
    | .recv, .udp =>
      let r := hostTake m ready
      (x, if r.1 then .ret .done else if nb then .ret .again else .stay, r.2)
    | _, _ =>
      if nb then
        let r := hostTake true ready
        ({ x with host := some false }, if r.1 then .ret .done else .ret .again, r.2)
      else
        let r := hostTake m ready
        (x, if r.1 then .ret .done else .stay, r.2)

/-- The descriptor that a successful accept makes, `/repo/src/safeposix/syscalls/net_calls.rs` 3174-3181 and 3293-3306: with the flag of
the listening descriptor, while the host gives out sockets that block. -/
def accepted (s : St) (c : Call) (nb : Bool) (x : Handle) (a : Ans) : St :=
  match c, a with
  | .accept d', .done =>
    { s with hs := s.hs ++ [{ proto := x.proto, born := x.born, host := some false, conn := .joined, bound := true }],
             descs := upd s.descs d' (some { h := s.hs.length, nb := nb }) }
  | _, _ => s

/-- The call that thread `t` is in. -/
def St.of (s : St) (t : Nat) : Option Pend := s.pend.find? (·.t == t)

def ask (s : St) (t : Nat) (ready : Bool) : Option (St × Option Note) :=
  match s.of t with
  | none => none
  | some p =>
    if p.call = .recv ∧ s.locked p.h then none
    else
      match s.descs p.d, s.hs[p.h]? with
      | some e, some x =>
        let r := question x p.call e.nb ready
        let s1 := { s with hs := s.hs.set p.h r.1 }
        let secs := p.secs + r.2.2
        match r.2.1 with
        | .ret a =>
          some ({ accepted s1 p.call e.nb x a with pend := s.pend.filter (·.t != t) },
            some { t := t, d := p.d, nb := p.nb0, h := p.h, proto := x.proto, call := p.call, ans := a, tries := p.tries + 1, secs := secs })
        | .stay =>
          some ({ s1 with pend := s.pend.map fun q => if q.t = t then { q with tries := q.tries + 1, secs := secs } else q }, none)
      | _, _ => some (s, some { t := t, d := p.d, nb := p.nb0, h := p.h, proto := .tcp, call := p.call, ans := .panic, tries := 0, secs := 0 })

/-- `none`: it has to wait for a lock. -/
def step (s : St) : Act → Option (St × Option Note)
  | .socket d p nb => (socket s d p nb).map (·, none)
  | .setfl d nb => (setfl s d nb).map (·, none)
  | .fionbio d nb => (fionbio s d nb).map (·, none)
  | .copy d d' => (copy s d d').map (·, none)
  | .close d => (close s d).map (·, none)
  | .bind d => (bind s d).map (·, none)
  | .listen d => (listen s d).map (·, none)
  | .begin t d c est => begin' s t d c est
  | .ask t ready => ask s t ready

/-- A schedule: acts that have to wait do not happen. -/
def runFrom (s : St) : List Act → St × List Note
  | [] => (s, [])
  | a :: l =>
    match step s a with
    | none => runFrom s l
    | some (s', n) => ((runFrom s' l).1, n.toList ++ (runFrom s' l).2)

def run (l : List Act) : St × List Note := runFrom St.init l

end Verif.BlockMode
