import Verif.Base

/-!
# Ports

Model of the table of used ports, `/repo/src/safeposix/net.rs` 70-120 and 222-523, and of the parts of `bind` and
socket clean-up that use it.

Simplifications: the `DashMap` `used_port_set` is a function; the use counts are `u32` in the code, here `Nat` (2^32
binds of one port are not considered); IPv4 and IPv6 addresses are a version and a number.
-/

namespace Verif.Ports

/-- `GenIpaddr`, `/repo/src/interface/comm.rs` 30-70. -/
structure Addr where
  v6 : Bool
  bits : Nat
  deriving DecidableEq, Repr

/-- `is_unspecified`. -/
def Addr.unspec (a : Addr) : Bool := a.bits == 0

/-- `PortType`, `/repo/src/safeposix/net.rs` 73-79. -/
structure PType where
  v6 : Bool
  tcp : Bool
  deriving DecidableEq, Repr

/-- The key of `used_port_set`: port (as stored, in network byte order) and type. -/
structure Key where
  port : Nat
  ty : PType
  deriving DecidableEq, Repr

/-- `EPHEMERAL_PORT_RANGE_START`, `/repo/src/safeposix/net.rs` 18. -/
def ephStart : Nat := 32768
/-- `EPHEMERAL_PORT_RANGE_END`, `/repo/src/safeposix/net.rs` 19. -/
def ephEnd : Nat := 60999

/-- `u16::to_be` on a little-endian machine. -/
def swap16 (n : Nat) : Nat := (n % 256) * 256 + n / 256

/-- One entry of a port: address and count; 0 means one user who does not allow others, a positive number that many users
who do.  `/repo/src/safeposix/net.rs` 205. -/
abbrev Users := List (Addr × Nat)

/-- `NetMetadata`, the port part, `/repo/src/safeposix/net.rs` 204-220.  `next` is the four `next_ephemeral_port_*`. -/
structure Net where
  used : Key → Option Users
  next : PType → Nat

/-- The initial value, `/repo/src/safeposix/net.rs` 23-45. -/
def Net.init : Net := { used := fun _ => none, next := fun _ => ephEnd }

/-- Counts start at 1 for a rebindable port and at 0 otherwise. -/
def firstCount (reb : Bool) : Nat := if reb then 1 else 0

/-- `initialize_port`, `/repo/src/safeposix/net.rs` 223-261: the new entry, or `none` for `false`.  `devs` is
`NET_DEVICE_IPLIST`. -/
def initPort (devs : List Addr) (o : Option Users) (a : Addr) (reb : Bool) : Option Users :=
  if a.unspec then
    match o with
    | some _ => none
    | none => some (devs.map (fun d => (d, firstCount reb)))
  else
    match o with
    | some l => if l.any (fun u => u.1 == a) then none else some (l ++ [(a, firstCount reb)])
    | none => some [(a, firstCount reb)]

/-- The numbers `lo ..= hi`, descending. -/
def down (lo hi : Nat) : List Nat := (List.range' lo (hi + 1 - lo)).reverse

/-- The candidates in the order the two loops try them, `/repo/src/safeposix/net.rs` 287-290, 338-341. -/
def candidates (next : Nat) : List Nat := down ephStart next ++ down (next + 1) ephEnd

/-- `/repo/src/safeposix/net.rs` 300-303. -/
def decNext (n : Nat) : Nat := if n - 1 < ephStart then ephEnd else n - 1

/-- `_get_available_udp_port`, `_get_available_tcp_port`, `/repo/src/safeposix/net.rs` 263-363 (the two differ only in the
type). -/
def ephemeral (devs : List Addr) (n : Net) (a : Addr) (ty : PType) (reb : Bool) : Net × Ret :=
  if !devs.contains a then (n, .err .EADDRNOTAVAIL)
  else
    match (candidates (n.next ty)).find? (fun q => (initPort devs (n.used ⟨swap16 q, ty⟩) a reb).isSome) with
    | none => (n, .err .EADDRINUSE)
    | some q =>
      ({ used := updK n.used ⟨swap16 q, ty⟩ (initPort devs (n.used ⟨swap16 q, ty⟩) a reb)
         next := updK n.next ty (decNext (n.next ty)) }, .ok (swap16 q))

/-- The loop over the users of an occupied port, `/repo/src/safeposix/net.rs` 420-434: `none` is the refusal. -/
def addUser (a : Addr) : Users → Option Users
  | [] => some []
  | u :: us =>
    if u.1 = a then
      if u.2 = 0 then none else some ((u.1, u.2 + 1) :: us)
    else (addUser a us).map (u :: ·)

/-- `_reserve_localport`, `/repo/src/safeposix/net.rs` 365-444. -/
def reserve (devs : List Addr) (n : Net) (a : Addr) (port : Nat) (ty : PType) (reb : Bool) : Net × Ret :=
  if !devs.contains a then (n, .err .EADDRNOTAVAIL)
  else if port = 0 then ephemeral devs n a ty reb
  else
    let k : Key := ⟨port, ty⟩
    if a.unspec then
      match n.used k with
      | some _ => (n, .err .EADDRINUSE)
      | none => ({ n with used := updK n.used k (some (devs.map (fun d => (d, firstCount reb)))) }, .ok port)
    else
      match n.used k with
      | some l =>
        match addUser a l with
        | none => (n, .err .EADDRINUSE)
        | some l' => ({ n with used := updK n.used k (some l') }, .ok port)
      | none => ({ n with used := updK n.used k (some [(a, firstCount reb)]) }, .ok port)

/-- `Vec::swap_remove`. -/
def swapRemove (l : Users) (i : Nat) : Users :=
  match l.getLast? with
  | none => l
  | some x => (l.set i x).dropLast

/-- The loop of `_release_localport` for the unspecified address, `/repo/src/safeposix/net.rs` 483-490: it runs over a copy,
but always works on index 0 of the original.  `none` is an arithmetic or index panic. -/
def dropAll : Users → Users → Option Users
  | [], arr => some arr
  | u :: us, arr =>
    if u.2 ≤ 1 then
      if arr = [] then none else dropAll us (swapRemove arr 0)
    else
      match arr with
      | [] => none
      | (_, 0) :: _ => (none : Option Users)
      | (a, m + 1) :: rest => dropAll us ((a, m) :: rest)

/-- The position of an address among the users. -/
def findUser (a : Addr) : Users → Nat → Option (Nat × Nat)
  | [], _ => none
  | u :: us, i => if u.1 = a then some (i, u.2) else findUser a us (i + 1)

/-- `_release_localport`, `/repo/src/safeposix/net.rs` 446-523. -/
def release (devs : List Addr) (n : Net) (a : Addr) (port : Nat) (ty : PType) : Net × Ret :=
  if !devs.contains a then (n, .err .EADDRNOTAVAIL)
  else
    let k : Key := ⟨port, ty⟩
    match n.used k with
    | none => (n, .err .EINVAL)
    | some l =>
      if a.unspec then
        match dropAll l l with
        | none => (n, .panic)
        | some l' => ({ n with used := updK n.used k (if l' = [] then none else some l') }, .ok 0)
      else
        match findUser a l 0 with
        | none => (n, .panic)
        | some (i, c) =>
          if c ≤ 1 then
            if l.length = 1 then ({ n with used := updK n.used k none }, .ok 0)
            else ({ n with used := updK n.used k (some (swapRemove l i)) }, .ok 0)
          else ({ n with used := updK n.used k (some (l.set i (a, c - 1))) }, .ok 0)

/-! ## Sockets -/

/-- What `bind` and clean-up use of a `SocketHandle`, `/repo/src/safeposix/net.rs` 117-134. -/
structure Sock where
  ty : PType
  /-- `SO_REUSEPORT` is set -/
  reuse : Bool
  localaddr : Option (Addr × Nat) := none
  deriving DecidableEq, Repr

/-- `bind_inner_socket` and `bind_inner_socket_inet` without `prereserved`,
`/repo/src/safeposix/syscalls/net_calls.rs` 416-458, 568-617.  The address has the family of the socket.  `host` is the
error of the host's `bind`, if any.  The local address is recorded whatever the outcome. -/
def bind (devs : List Addr) (n : Net) (s : Sock) (a : Addr) (port : Nat) (host : Option Errno) : Net × Sock × Ret :=
  match s.localaddr with
  | some _ => (n, s, .err .EINVAL)
  | none =>
    match reserve devs n a port s.ty s.reuse with
    | (n', .ok p) =>
      (n', { s with localaddr := some (a, p.toNat) }, match host with | none => .ok 0 | some e => .err e)
    | (n', r) => (n', { s with localaddr := some (a, port) }, r)

/-- Closing the last descriptor of a socket on which `bind` was called: `_cleanup_socket_inner_helper(-1, false)`,
`/repo/src/safeposix/syscalls/net_calls.rs` 2654-2747. -/
def closeSock (devs : List Addr) (n : Net) (s : Sock) : Net × Sock × Ret :=
  match s.localaddr with
  | none => (n, s, .ok 0)
  | some (a, p) =>
    match release devs n a p s.ty with
    | (n', r) => (n', { s with localaddr := none }, r)

end Verif.Ports
