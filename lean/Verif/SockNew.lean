/-!
# Making sockets: `socket` and `socketpair` from their arguments

Models how `/repo/src/safeposix/syscalls/net_calls.rs` reads the three numbers a caller gives to `socket` and `socketpair`, what the
descriptors made of them hold, and where in the table of the process they go.

An `i32` is a bit vector of 32 bits; a return value is an integer.  What a socket does afterwards is in `UnixSock` and `InetSock`: of a
socket only its identity is kept, and for a pair which two sockets were joined.  The files named `/sockN` that `socketpair` makes and the
references it takes on them are in `UnixBind` and `UnixRefs`.  The calls run one at a time, so that a slot in use by another thread
(`try_write` failing in `get_next_fd`) does not occur here; `FdConc` is about that.
-/

namespace Verif.SockNew

/-- A Rust `i32`. -/
abbrev I32 := BitVec 32

/-- `SOCK_STREAM`, `/repo/src/safeposix/syscalls/net_constants.rs` 16. -/
def sockStream : I32 := 1
/-- `SOCK_DGRAM`, `/repo/src/safeposix/syscalls/net_constants.rs` 17. -/
def sockDgram : I32 := 2
/-- `SOCK_CLOEXEC`, `/repo/src/safeposix/syscalls/net_constants.rs` 21. -/
def sockCloexec : I32 := 0o2000000
/-- `SOCK_NONBLOCK`, `/repo/src/safeposix/syscalls/net_constants.rs` 22. -/
def sockNonblock : I32 := 0o4000
/-- `AF_UNIX` and `PF_UNIX`, `/repo/src/safeposix/syscalls/net_constants.rs` 26 and 83. -/
def afUnix : I32 := 1
/-- `AF_INET` and `PF_INET`, `/repo/src/safeposix/syscalls/net_constants.rs` 28 and 85. -/
def afInet : I32 := 2
/-- `AF_INET6` and `PF_INET6`, `/repo/src/safeposix/syscalls/net_constants.rs` 36 and 93. -/
def afInet6 : I32 := 10
/-- `IPPROTO_TCP`, `/repo/src/safeposix/syscalls/net_constants.rs` 140. -/
def ipprotoTcp : I32 := 6
/-- `IPPROTO_UDP`, `/repo/src/safeposix/syscalls/net_constants.rs` 151. -/
def ipprotoUdp : I32 := 17
/-- `O_NONBLOCK`, `/repo/src/safeposix/syscalls/fs_constants.rs` 38. -/
def oNonblock : I32 := 0o4000
/-- `O_CLOEXEC`, `/repo/src/safeposix/syscalls/fs_constants.rs` 43. -/
def oCloexec : I32 := 0o2000000
/-- `O_RDWRFLAGS`, `/repo/src/safeposix/syscalls/fs_constants.rs` 31. -/
def oRdwr : I32 := 0o3
/-- `O_CREAT | O_EXCL | O_NOCTTY | O_TRUNC`, `/repo/src/safeposix/syscalls/fs_constants.rs` 33-36. -/
def oCreation : I32 := 0o1700

/-- `EBADF`, `/repo/src/interface/errnos.rs` 43. -/
def eBADF : Int := 9
/-- `EINVAL`, `/repo/src/interface/errnos.rs` 56. -/
def eINVAL : Int := 22
/-- `ENFILE`, `/repo/src/interface/errnos.rs` 57. -/
def eNFILE : Int := 23
/-- `ENOTSOCK`, `/repo/src/interface/errnos.rs` 121. -/
def eNOTSOCK : Int := 88
/-- `EOPNOTSUPP`, `/repo/src/interface/errnos.rs` 128. -/
def eOPNOTSUPP : Int := 95

/-- `MAXFD`, `/repo/src/safeposix/cage.rs` 141. -/
def maxfd : Nat := 1024

/-- What `SocketDesc` and the `SocketHandle` behind it hold from the beginning, `/repo/src/safeposix/syscalls/net_calls.rs` 83-91 and
1229-1244: the flags of the descriptor, and domain, type and protocol of the socket.  `id` is the identity of the handle. -/
structure Sock where
  flags : I32
  domain : I32
  socktype : I32
  protocol : I32
  id : Nat
  deriving DecidableEq, Repr

/-- An entry of the descriptor table, `/repo/src/safeposix/cage.rs` 52-58; of one that is not a socket only the flags are kept. -/
inductive Desc where
  | other (flags : I32)
  | sock (s : Sock)
  deriving DecidableEq, Repr

/-- The flags of an entry. -/
def Desc.flags : Desc → I32
  | .other f => f
  | .sock s => s.flags

/-- The same entry with other flags. -/
def Desc.withFlags : Desc → I32 → Desc
  | .other _, f => .other f
  | .sock s, f => .sock { s with flags := f }

/-- The descriptor table of a process, how many sockets were made so far, and which two sockets each `socketpair` joined. -/
structure State where
  fds : Nat → Option Desc
  made : Nat
  joined : List (Nat × Nat)

/-- `init_fdtable`, `/repo/src/safeposix/cage.rs` 199-235: the three standard streams. -/
def init : State :=
  { fds := fun n => if n = 0 then some (.other 0) else if n = 1 then some (.other 1) else if n = 2 then some (.other 1) else none
    made := 0, joined := [] }

/-- One slot of the table is replaced. -/
def put (t : Nat → Option Desc) (n : Nat) (d : Option Desc) : Nat → Option Desc := fun m => if m = n then d else t m

/-- The loop of `get_next_fd`, `/repo/src/safeposix/cage.rs` 141-150, with `k` slots still to look at. -/
def scan (t : Nat → Option Desc) : Nat → Nat → Option Nat
  | 0, _ => none
  | k + 1, n => if t n = none then some n else scan t k (n + 1)

/-- `get_next_fd(None)`, `/repo/src/safeposix/cage.rs` 127-159. -/
def nextFd (t : Nat → Option Desc) : Option Nat := scan t maxfd 0

/-- `_socket_initializer`, `/repo/src/safeposix/syscalls/net_calls.rs` 66-95; the type is stored with the flags that came with it. -/
def initializer (s : State) (domain socktype protocol : I32) (nonblocking cloexec : Bool) : State × Sock :=
  ({ s with made := s.made + 1 },
   { flags := (if nonblocking then oNonblock else 0) ||| (if cloexec then oCloexec else 0)
     domain := domain, socktype := socktype, protocol := protocol, id := s.made })

/-- `_socket_inserter`, `/repo/src/safeposix/syscalls/net_calls.rs` 97-112: the number, or the error that `get_next_fd` gives. -/
def inserter (s : State) (k : Sock) : State × Int :=
  match nextFd s.fds with
  | none => (s, -eNFILE)
  | some n => ({ s with fds := put s.fds n (some (.sock k)) }, n)

/-- The last arms of `socket_syscall`, `/repo/src/safeposix/syscalls/net_calls.rs` 219-253 and 269-303: the same in both. -/
def inDomain (s : State) (domain socktype protocol : I32) (nonblocking cloexec : Bool) : State × Int :=
  if domain = afInet ∨ domain = afInet6 ∨ domain = afUnix then
    let (s1, k) := initializer s domain socktype protocol nonblocking cloexec
    inserter s1 k
  else (s, -eOPNOTSUPP)

/-- `socket_syscall`, `/repo/src/safeposix/syscalls/net_calls.rs` 182-312. -/
def socket (s : State) (domain socktype protocol : I32) : State × Int :=
  let real := socktype &&& 7
  let nonblocking := decide (socktype &&& sockNonblock ≠ 0)
  let cloexec := decide (socktype &&& sockCloexec ≠ 0)
  if socktype &&& ~~~(sockNonblock ||| sockCloexec ||| 7) ≠ 0 then (s, -eOPNOTSUPP)
  else if real = sockStream then
    let p := if protocol = 0 then ipprotoTcp else protocol
    if p ≠ ipprotoTcp then (s, -eOPNOTSUPP) else inDomain s domain socktype p nonblocking cloexec
  else if real = sockDgram then
    let p := if protocol = 0 then ipprotoUdp else protocol
    if p ≠ ipprotoUdp then (s, -eOPNOTSUPP) else inDomain s domain socktype p nonblocking cloexec
  else (s, -eOPNOTSUPP)

/-- `socketpair_syscall`, `/repo/src/safeposix/syscalls/net_calls.rs` 5110-5216.  The pair of numbers is what the call stores in the
caller's `SockPair`, when it stores anything.  What `_socket_inserter` answers is not looked at. -/
def socketpair (s : State) (domain socktype protocol : I32) : State × Int × Option (Int × Int) :=
  let p := if protocol = 0 then ipprotoTcp else protocol
  if domain ≠ afUnix then (s, -eOPNOTSUPP, none)
  else if socktype &&& 7 ≠ sockStream ∨ p ≠ ipprotoTcp then (s, -eOPNOTSUPP, none)
  else if socktype &&& ~~~(sockNonblock ||| sockCloexec ||| 7) ≠ 0 then (s, -eINVAL, none)
  else
    let nonblocking := decide (socktype &&& sockNonblock ≠ 0)
    let cloexec := decide (socktype &&& sockCloexec ≠ 0)
    let (s1, k1) := initializer s domain socktype p nonblocking cloexec
    let (s2, n1) := inserter s1 k1
    let (s3, k2) := initializer s2 domain socktype p nonblocking cloexec
    let (s4, n2) := inserter s3 k2
    ({ s4 with joined := (k1.id, k2.id) :: s4.joined }, 0, some (n1, n2))

/-- `close_syscall` as far as the table goes, `/repo/src/safeposix/syscalls/fs_calls.rs` 3560-3564 and 3820-3844. -/
def close (s : State) (n : Nat) : State × Int :=
  if n < maxfd then
    match s.fds n with
    | none => (s, -eBADF)
    | some _ => ({ s with fds := put s.fds n none }, 0)
  else (s, -eBADF)

/-- Any other call that makes a descriptor (`open`, `dup`, `pipe`, …) puts it in a slot that is free, `/repo/src/safeposix/cage.rs`
127-159. -/
def place (s : State) (n : Nat) (flags : I32) : State × Int :=
  if n < maxfd ∧ s.fds n = none then ({ s with fds := put s.fds n (some (.other flags)) }, n) else (s, -eNFILE)

/-- `fcntl` with `F_GETFD`, `/repo/src/safeposix/syscalls/fs_calls.rs` 3938. -/
def getfd (s : State) (n : Nat) : Int :=
  match s.fds n with
  | none => -eBADF
  | some d => (d.flags &&& oCloexec).toInt

/-- `fcntl` with `F_GETFL`, `/repo/src/safeposix/syscalls/fs_calls.rs` 3951. -/
def getfl (s : State) (n : Nat) : Int :=
  match s.fds n with
  | none => -eBADF
  | some d => (d.flags &&& ~~~oCreation).toInt

/-- `fcntl` with `F_SETFD`, `/repo/src/safeposix/syscalls/fs_calls.rs` 3939-3948. -/
def setfd (s : State) (n : Nat) (arg : I32) : State × Int :=
  match s.fds n with
  | none => (s, -eBADF)
  | some d =>
    if 0 ≤ arg.toInt then
      ({ s with fds := put s.fds n (some (d.withFlags
          (if arg &&& oCloexec ≠ 0 then d.flags ||| oCloexec else d.flags &&& ~~~oCloexec))) }, 0)
    else (s, -eINVAL)

/-- `fcntl` with `F_SETFL`, `/repo/src/safeposix/syscalls/fs_calls.rs` 3897-3923 (the host is told, and agrees) and 3954-3964. -/
def setfl (s : State) (n : Nat) (arg : I32) : State × Int :=
  match s.fds n with
  | none => (s, -eBADF)
  | some d =>
    if 0 ≤ arg.toInt then
      ({ s with fds := put s.fds n (some (d.withFlags
          ((arg &&& ~~~(oRdwr ||| oCreation)) ||| (d.flags &&& (oRdwr ||| oCreation))))) }, 0)
    else (s, -eINVAL)

/-- `getsockopt` for `SO_TYPE`, `/repo/src/safeposix/syscalls/net_calls.rs` 3908-3911. -/
def sotype (s : State) (n : Nat) : Int :=
  match s.fds n with
  | none => -eBADF
  | some (.other _) => -eNOTSOCK
  | some (.sock k) => k.socktype.toInt

/-- The loops of `exec_syscall`, `/repo/src/safeposix/syscalls/sys_calls.rs` 446-475: every descriptor marked is closed. -/
def exec (s : State) : State :=
  { s with fds := fun n =>
      match s.fds n with
      | none => none
      | some d => if n < maxfd ∧ d.flags &&& oCloexec ≠ 0 then none else some d }

/-- The calls. -/
inductive Op where
  | socket (domain socktype protocol : I32)
  | socketpair (domain socktype protocol : I32)
  | close (n : Nat)
  | place (n : Nat) (flags : I32)
  | setfd (n : Nat) (arg : I32)
  | setfl (n : Nat) (arg : I32)
  | exec
  deriving DecidableEq, Repr

/-- One call: its return value, and what `socketpair` stores. -/
def step (s : State) : Op → State × Int × Option (Int × Int)
  | .socket d t p => ((socket s d t p).1, (socket s d t p).2, none)
  | .socketpair d t p => socketpair s d t p
  | .close n => ((close s n).1, (close s n).2, none)
  | .place n f => ((place s n f).1, (place s n f).2, none)
  | .setfd n a => ((setfd s n a).1, (setfd s n a).2, none)
  | .setfl n a => ((setfl s n a).1, (setfl s n a).2, none)
  | .exec => (exec s, 0, none)

/-- A history of calls. -/
def run (s : State) : List Op → State
  | [] => s
  | o :: os => run (step s o).1 os

end Verif.SockNew
