/-!
# Socket addresses at the call boundary

Models how the dispatcher reads a `struct sockaddr` from the caller's memory and writes one back:
`get_sockaddr` and `copy_out_sockaddr` (src/interface/types.rs 513-628), the address structures
(src/interface/comm.rs 17-96, 170-225) and the calls that use them
(src/safeposix/dispatcher.rs 388-549).

The caller's memory is a function from the offset behind the pointer to a byte.  Two-byte
fields are little-endian numbers (x86-64), all other fields byte lists.
-/

namespace Verif.SockAddr

/-- `GenSockaddr` (comm.rs 17-22) with `SockaddrUnix` (170-174), `SockaddrV4` (202-209),
`SockaddrV6` (216-225); all `repr(C)`, without padding between the fields. -/
inductive Addr
  /-- `sun_family`, `sun_path` (108 bytes) -/
  | unix (family : Nat) (path : List Nat)
  /-- `sin_family`, `sin_port`, `sin_addr` (4 bytes), `padding` (8 bytes) -/
  | v4 (family port : Nat) (addr padding : List Nat)
  /-- `sin6_family`, `sin6_port`, `sin6_flowinfo` (4), `sin6_addr` (16), `sin6_scope_id` (4) -/
  | v6 (family port : Nat) (flow addr scope : List Nat)
  deriving DecidableEq, Repr

/-- Errors of `get_sockaddr`. -/
inductive Err
  | EFAULT | EINVAL | EOPNOTSUPP
  deriving DecidableEq, Repr

/-- Result of `get_sockaddr`. -/
inductive Rd
  | ok (a : Addr)
  | error (e : Err)
  deriving DecidableEq, Repr

/-- A caller's memory behind a pointer. -/
abbrev Mem := Nat → Nat

/-- `n` bytes at an offset. -/
def bytesAt (m : Mem) (off : Nat) : Nat → List Nat
  | 0 => []
  | n + 1 => m off :: bytesAt m (off + 1) n

/-- A `u16` at an offset (little-endian). -/
def u16At (m : Mem) (off : Nat) : Nat := m off + 256 * m (off + 1)

/-- The bytes of a `u16` (little-endian). -/
def u16Bytes (n : Nat) : List Nat := [n % 256, n / 256 % 256]

/-- `size_of::<SockaddrUnix>()` -/
def sizeUnix : Nat := 110
/-- `size_of::<SockaddrV4>()` -/
def sizeV4 : Nat := 16
/-- `size_of::<SockaddrV6>()` -/
def sizeV6 : Nat := 28

/-- `get_sockaddr` (types.rs 513-570).  `ptr = none` is the null pointer.  `SIZEOF_SOCKADDR` is
16 (types.rs 5).  The structure is always read in full, whatever `addrlen` says.  The IPv6
family is the literal 30 (types.rs 545), not Linux's 10. -/
def getSockaddr (ptr : Option Mem) (addrlen : Nat) : Rd :=
  match ptr with
  | none => .error .EFAULT
  | some m =>
    if u16At m 0 = 1 then
      if addrlen < 16 ∨ addrlen > sizeUnix then .error .EINVAL
      else .ok (.unix (u16At m 0) (bytesAt m 2 108))
    else if u16At m 0 = 2 then
      if addrlen < sizeV4 then .error .EINVAL
      else .ok (.v4 (u16At m 0) (u16At m 2) (bytesAt m 4 4) (bytesAt m 8 8))
    else if u16At m 0 = 30 then
      if addrlen < sizeV6 then .error .EINVAL
      else .ok (.v6 (u16At m 0) (u16At m 2) (bytesAt m 4 4) (bytesAt m 8 16) (bytesAt m 24 4))
    else .error .EOPNOTSUPP

/-- The bytes of an address structure in memory (`repr(C)`, comm.rs 169-225). -/
def layout : Addr → List Nat
  | .unix f p => u16Bytes f ++ p
  | .v4 f p a z => u16Bytes f ++ u16Bytes p ++ a ++ z
  | .v6 f p w a s => u16Bytes f ++ u16Bytes p ++ w ++ a ++ s

/-- `size_of` of the structure an address is kept in. -/
def sizeOf : Addr → Nat
  | .unix .. => sizeUnix
  | .v4 .. => sizeV4
  | .v6 .. => sizeV6

/-- `ptr::copy(src, dst, n)` onto the caller's memory. -/
def poke (m : Mem) (n : Nat) (bs : List Nat) : Mem :=
  fun i => if i < n then bs.getD i 0 else m i

/-- `copy_out_sockaddr` (types.rs 572-628): the memory behind the address pointer and the
length word afterwards.  Both pointers are non-null (asserted there; the dispatcher checks). -/
def copyOut (a : Addr) (m : Mem) (len : Nat) : Mem × Nat :=
  let fullcopylen := min len (sizeOf a)
  (poke m fullcopylen (layout a), max (sizeOf a) fullcopylen)

/-- What an out-address call does to its caller. -/
structure Outcome where
  /-- was the system call made at all -/
  called : Bool
  rv : Int
  mem : Option Mem
  len : Option Nat

/-- `accept` and `recvfrom` in the dispatcher (dispatcher.rs 427-463, 482-510): both pointers
null, both non-null, or `EINVAL` (22).  `call` is the result of the system call and the address
it reports. `recvfrom` additionally extracts the length pointer first, which cannot fail here
since it is not null. -/
def outCall2 (addr : Option Mem) (len : Option Nat) (call : Int × Addr) : Outcome :=
  match addr, len with
  | none, none => ⟨true, call.1, none, none⟩
  | some m, some n =>
    if call.1 ≥ 0 then
      let r := copyOut call.2 m n
      ⟨true, call.1, some r.1, some r.2⟩
    else ⟨true, call.1, some m, some n⟩
  | a, l => ⟨false, -22, a, l⟩

/-- `getpeername` and `getsockname` in the dispatcher (dispatcher.rs 511-549): neither pointer
may be null. -/
def outCall1 (addr : Option Mem) (len : Option Nat) (call : Int × Addr) : Outcome :=
  match addr, len with
  | some m, some n =>
    if call.1 ≥ 0 then
      let r := copyOut call.2 m n
      ⟨true, call.1, some r.1, some r.2⟩
    else ⟨true, call.1, some m, some n⟩
  | a, l => ⟨false, -22, a, l⟩

/-- `new_sockaddr_unix` (comm.rs 176-187); `none` is the panic on more than 108 bytes. -/
def newUnix (family : Nat) (path : List Nat) : Option Addr :=
  if path.length > 108 then none
  else some (.unix family (path ++ List.replicate (108 - path.length) 0))

/-- `GenSockaddr::path` (comm.rs 84-95): the bytes before the first zero byte; `none` is the
panic when they are not UTF-8 (`utf8` decides that) or the address is not a Unix one. -/
def pathOf (utf8 : List Nat → Bool) : Addr → Option (List Nat)
  | .unix _ p =>
    if utf8 (p.takeWhile (fun b => b != 0)) then some (p.takeWhile (fun b => b != 0)) else none
  | _ => none

end Verif.SockAddr
