import Verif.Base

/-!
# Socket options

Model of `getsockopt_syscall` and `setsockopt_syscall`, `/repo/src/safeposix/syscalls/net_calls.rs` 3755-4212, and of the
initial values of a socket's options, 65-95 and 1222-1245.

Simplifications: one call at a time; the handles of sockets are numbered; the rest of the program (opening, closing and
copying descriptors, listening, errors being recorded, the host's socket being created) is represented by operations
that change the fields these calls read; an error number of the host that the code does not know (which aborts it) is
left out.
-/

namespace Verif.SockOpt

/-- What the calls use of `SocketHandle`, `/repo/src/safeposix/net.rs` 117-134. -/
structure Handle where
  /-- `socket_options` -/
  opts : BitVec 32
  /-- `tcp_options` -/
  tcp : BitVec 32 := 0
  socktype : Int
  sndbuf : Int := 131070
  rcvbuf : Int := 262140
  errno : Int := 0
  /-- `state == LISTEN` -/
  listening : Bool := false
  /-- `innersocket` is there -/
  inner : Bool := false
  deriving DecidableEq, Repr

/-- `O_NONBLOCK`, `O_CLOEXEC`, `/repo/src/safeposix/syscalls/fs_constants.rs` 38, 43. -/
def oNonblock : BitVec 32 := 0x800
def oCloexec : BitVec 32 := 0x80000

/-- `_socket_initializer` with `mksockhandle`, `/repo/src/safeposix/syscalls/net_calls.rs` 81-94, 1222-1245: the
descriptor's flags are passed as the options. -/
def mkHandle (socktype : Int) (nonblock cloexec : Bool) : Handle :=
  { opts := (if nonblock then oNonblock else 0) ||| (if cloexec then oCloexec else 0), socktype := socktype }

/-- `SOL_SOCKET`, `SOL_TCP`, `SOL_UDP`, `/repo/src/safeposix/syscalls/net_constants.rs` 276, 334, 335. -/
def solSocket : Int := 1
def solTcp : Int := 6
def solUdp : Int := 17
/-- `TCP_NODELAY`, 344. -/
def tcpNodelay : Int := 1
/-- `SO_*`, 279-302. -/
def soReuseaddr : Int := 2
def soType : Int := 3
def soError : Int := 4
def soSndbuf : Int := 7
def soRcvbuf : Int := 8
def soKeepalive : Int := 9
def soOobinline : Int := 10
def soLinger : Int := 13
def soReuseport : Int := 15
def soRcvlowat : Int := 18
def soSndlowat : Int := 19
def soAcceptconn : Int := 30

/-- `1 << optname` on `i32`; `none` is the overflow panic. -/
def optBit (o : Int) : Option (BitVec 32) := if 0 ≤ o ∧ o < 32 then some (1#32 <<< o.toNat) else none

/-- The value of a flag. -/
def flag (w b : BitVec 32) : Int := if b &&& w = b then 1 else 0

/-- Setting a flag. -/
def setFlag (w b : BitVec 32) (v : Int) : BitVec 32 := if v ≠ 0 then w ||| b else w &&& ~~~b

/-- What `getsockopt` does with the handle, `/repo/src/safeposix/syscalls/net_calls.rs` 3804-3945: the new handle, the return
value and the value stored (the stored value does not matter on failure). -/
def getOpt (h : Handle) (level o : Int) : Handle × Ret × Int :=
  match optBit o with
  | none => (h, .panic, 0)
  | some b =>
    if level = solUdp then (h, .err .ENOPROTOOPT, 0)
    else if level = solTcp then
      if o = tcpNodelay then (h, .ok 0, flag h.tcp b) else (h, .err .ENOPROTOOPT, 0)
    else if level = solSocket then
      if o = soAcceptconn then (h, .ok 0, if h.listening then 1 else 0)
      else if o = soLinger ∨ o = soKeepalive ∨ o = soSndlowat ∨ o = soRcvlowat ∨ o = soReuseport ∨ o = soReuseaddr then
        (h, .ok 0, flag h.opts b)
      else if o = soSndbuf then (h, .ok 0, h.sndbuf)
      else if o = soRcvbuf then (h, .ok 0, h.rcvbuf)
      else if o = soType then (h, .ok 0, h.socktype)
      else if o = soOobinline then (h, .ok 0, 1)
      else if o = soError then ({ h with errno := 0 }, .ok 0, h.errno)
      else (h, .err .ENOPROTOOPT, 0)
    else (h, .err .EOPNOTSUPP, 0)

/-- What `setsockopt` does with the handle, `/repo/src/safeposix/syscalls/net_calls.rs` 4020-4195.  `host` is the error of
the host's `setsockopt`, if it fails; it is asked only if the flag changes and the host's socket exists. -/
def setOpt (h : Handle) (level o v : Int) (host : Option Errno) : Handle × Ret :=
  if level = solUdp then (h, .err .EOPNOTSUPP)
  else if level = solTcp then
    if o = tcpNodelay then
      match optBit o with
      | none => (h, .panic)
      | some b =>
        match (if setFlag h.tcp b v ≠ h.tcp ∧ h.inner then host else none) with
        | some e => (h, .err e)
        | none => ({ h with tcp := setFlag h.tcp b v }, .ok 0)
    else (h, .err .EOPNOTSUPP)
  else if level = solSocket then
    match optBit o with
    | none => (h, .panic)
    | some b =>
      if o = soAcceptconn ∨ o = soType ∨ o = soSndlowat ∨ o = soRcvlowat then (h, .err .ENOPROTOOPT)
      else if o = soLinger ∨ o = soKeepalive then ({ h with opts := setFlag h.opts b v }, .ok 0)
      else if o = soReuseport ∨ o = soReuseaddr then
        match (if setFlag h.opts b v ≠ h.opts ∧ h.inner then host else none) with
        | some e => (h, .err e)
        | none => ({ h with opts := setFlag h.opts b v }, .ok 0)
      else if o = soSndbuf then ({ h with sndbuf := v }, .ok 0)
      else if o = soRcvbuf then ({ h with rcvbuf := v }, .ok 0)
      else if o = soOobinline then if v ≠ 1 then (h, .err .EOPNOTSUPP) else (h, .ok 0)
      else (h, .err .EOPNOTSUPP)
  else (h, .err .EOPNOTSUPP)

/-- An entry of the descriptor table: a socket with its handle, or something else. -/
inductive Desc
  | sock (h : Nat)
  | other
  deriving DecidableEq, Repr

/-- The descriptor table and the handles. -/
structure State where
  fds : Nat → Option Desc
  hs : Nat → Option Handle

def init : State := { fds := fun _ => none, hs := fun _ => none }

/-- `MAXFD`. -/
def maxFd : Nat := 1024

/-- Operations: the two calls; `socket` makes a handle under a number not in use; the others stand for the rest of the
program. -/
inductive Op
  | set (fd level o v : Int) (host : Option Errno)
  | get (fd level o : Int)
  | socket (h : Nat) (socktype : Int) (nonblock cloexec : Bool)
  | place (fd : Nat) (d : Option Desc)
  | env (h : Nat) (listening inner : Bool) (errno : Int)
  deriving DecidableEq, Repr

/-- The descriptor checks of the two calls, `/repo/src/safeposix/syscalls/net_calls.rs` 3789-3801, 3946-3961, 4005-4017,
4196-4211. -/
def onSock (s : State) (fd : Int) (f : Nat → Handle → State × Ret × Int) : State × Ret × Int :=
  if fd < 0 ∨ fd ≥ maxFd then (s, .err .EBADF, 0)
  else
    match s.fds fd.toNat with
    | none => (s, .err .EBADF, 0)
    | some .other => (s, .err .ENOTSOCK, 0)
    | some (.sock h) =>
      match s.hs h with
      | none => (s, .panic, 0)
      | some x => f h x

/-- One operation: new state, return value, value stored by `get`. -/
def step (s : State) : Op → State × Ret × Int
  | .set fd level o v host =>
    onSock s fd fun h x => ({ s with hs := upd s.hs h (some (setOpt x level o v host).1) }, (setOpt x level o v host).2, 0)
  | .get fd level o =>
    onSock s fd fun h x => ({ s with hs := upd s.hs h (some (getOpt x level o).1) }, (getOpt x level o).2.1, (getOpt x level o).2.2)
  | .socket h t nb ce =>
    match s.hs h with
    | some _ => (s, .err .EINVAL, 0)
    | none => ({ s with hs := upd s.hs h (some (mkHandle t nb ce)) }, .ok 0, 0)
  | .place fd d => ({ s with fds := upd s.fds fd d }, .ok 0, 0)
  | .env h l i e =>
    match s.hs h with
    | none => (s, .ok 0, 0)
    | some x => ({ s with hs := upd s.hs h (some { x with listening := l, inner := i, errno := e }) }, .ok 0, 0)

end Verif.SockOpt
