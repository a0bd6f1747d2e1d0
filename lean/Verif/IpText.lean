/-!
# Textual IP addresses and the network device list

Models `GenIpaddr::from_string` (src/interface/comm.rs 112-168) and the list of local addresses
built from the device file (src/safeposix/net.rs 48-71).

Text is a list of characters, an address a list of bytes in memory order (4 for IPv4, 16 for
IPv6).  A panic of the Rust code is the explicit outcome `panic`.
-/

namespace Verif.IpText

/-- `GenIpaddr` (src/interface/comm.rs 98-102): the bytes of `s_addr` (in memory order, as
`u32::from_ne_bytes` stores them) or of `s6_addr`. -/
inductive Ip
  | v4 (bytes : List Nat)
  | v6 (bytes : List Nat)
  deriving DecidableEq, Repr

/-- What a computation that may panic gives; `none` models Rust's `Option::None`. -/
inductive Res (α : Type)
  | ok (a : α)
  | none
  | panic
  deriving DecidableEq, Repr

/-- `str::split(c).collect()` as used in comm.rs 113-114 and net.rs 59, 63: pieces between the
occurrences of `c`, always at least one. -/
def splitOn (c : Char) : List Char → List (List Char)
  | [] => [[]]
  | x :: xs =>
    if x = c then [] :: splitOn c xs
    else match splitOn c xs with
      | [] => [[x]]
      | p :: ps => (x :: p) :: ps

/-- Value of an ASCII digit (`char::to_digit(10)`, used by the standard library's `parse`). -/
def digit (c : Char) : Option Nat :=
  if 48 ≤ c.toNat ∧ c.toNat ≤ 57 then some (c.toNat - 48) else .none

/-- The digit loop of the standard library's integer `parse`: every character must be a digit
and neither the multiplication by ten nor the addition may exceed `max` (checked arithmetic on
`u8`/`u16`). -/
def digits (max : Nat) : Nat → List Char → Option Nat
  | acc, [] => some acc
  | acc, c :: cs =>
    match digit c with
    | .none => .none
    | some d =>
      if acc * 10 > max then .none
      else if acc * 10 + d > max then .none
      else digits max (acc * 10 + d) cs

/-- `str::parse::<u8>()` / `::<u16>()` (comm.rs 140, 157): empty text and a lone sign are
errors, one leading `+` is skipped, then the digit loop. -/
def parseU (max : Nat) (s : List Char) : Option Nat :=
  match s with
  | [] => .none
  | [c] => if c = '+' ∨ c = '-' then .none else digits max 0 [c]
  | c :: cs => if c = '+' then digits max 0 cs else digits max 0 (c :: cs)

/-- The loop of the IPv4 branch (comm.rs 153-163): `bytearr` is filled from the left. -/
def v4loop : List (List Char) → List Nat → Option (List Nat)
  | [], acc => some acc
  | p :: ps, acc =>
    match parseU 255 p with
    | .none => .none
    | some b => v4loop ps (acc ++ [b])

/-- `8 - v6l + 1` on `usize` (comm.rs 130).  `checked` is the build's overflow-checks setting:
with it the subtraction panics for `v6l > 8`, without it the arithmetic wraps at 64 bits. -/
def numZeros (checked : Bool) (v6l : Nat) : Res Nat :=
  if v6l ≤ 8 then .ok (8 - v6l + 1)
  else if checked then .panic
  else .ok ((2 ^ 64 + 8 - v6l + 1) % 2 ^ 64)

/-- Writing the two bytes of group `idx` (comm.rs 142-144); outside the 16 byte array the
indexing panics. `2 * shortindex` wraps or panics too when it exceeds 64 bits. -/
def putGroup (checked : Bool) (arr : List Nat) (idx b : Nat) : Res (List Nat) :=
  if 2 ^ 64 ≤ 2 * idx ∧ checked then .panic
  else if 2 * idx % 2 ^ 64 + 1 < 16 then
    .ok ((arr.set (2 * idx % 2 ^ 64) (b / 256)).set (2 * idx % 2 ^ 64 + 1) (b % 256))
  else .panic

/-- The loop of the IPv6 branch (comm.rs 121-149). `n` is `v6l`, the number of pieces. -/
def v6loop (checked : Bool) (n : Nat) :
    List (List Char) → List Nat → Nat → Bool → Res (List Nat)
  | [], arr, _, _ => .ok arr
  | p :: ps, arr, idx, seen =>
    if p = [] then
      if seen then .none
      else match numZeros checked n with
        | .panic => .panic
        | .none => .none
        | .ok z =>
          if z = 0 then .none
          else if 2 ^ 64 ≤ idx + z ∧ checked then .panic
          else v6loop checked n ps arr ((idx + z) % 2 ^ 64) true
    else match parseU 65535 p with
      | .none => .none
      | some b =>
        match putGroup checked arr idx b with
        | .ok arr' => v6loop checked n ps arr' (idx + 1) seen
        | .none => .none
        | .panic => .panic

/-- `GenIpaddr::from_string` (comm.rs 112-168). -/
def fromString (checked : Bool) (s : List Char) : Res Ip :=
  let v4c := splitOn '.' s
  let v6c := splitOn ':' s
  if v4c.length = 1 ∧ v6c.length > 1 then
    match v6loop checked v6c.length v6c (List.replicate 16 0) 0 false with
    | .ok bs => .ok (.v6 bs)
    | .none => .none
    | .panic => .panic
  else if v4c.length = 4 ∧ v6c.length = 1 then
    match v4loop v4c [] with
    | some bs => .ok (.v4 bs)
    | .none => .none
  else .none

/-- The loop of `ips_from_ifaddrs` (net.rs 59-66): empty lines are skipped, the third
space-separated field is parsed; a line with fewer fields (index out of range) or an
unparsable address (`expect`) panics. -/
def ipsLoop (checked : Bool) : List (List Char) → List Ip → Res (List Ip)
  | [], acc => .ok acc
  | l :: ls, acc =>
    if l = [] then ipsLoop checked ls acc
    else match (splitOn ' ' l)[2]? with
      | .none => .panic
      | some f =>
        match fromString checked f with
        | .ok ip => ipsLoop checked ls (acc ++ [ip])
        | _ => .panic

/-- `ips_from_ifaddrs` (net.rs 57-71): the devices' addresses, then `0.0.0.0`. -/
def ipsFromIfaddrs (checked : Bool) (file : List Char) : Res (List Ip) :=
  match ipsLoop checked (splitOn '\n' file) [] with
  | .ok ips =>
    match fromString checked "0.0.0.0".toList with
    | .ok z => .ok (ips ++ [z])
    | _ => .panic
  | .none => .none
  | .panic => .panic

/-- `getifaddrs_syscall` (src/safeposix/syscalls/net_calls.rs 5240-5254) with `fill`
(src/interface/misc.rs 288-292): the buffer after the call, or `none` for the error
`EOPNOTSUPP`.  Characters stand for the bytes of the file, which is ASCII as
`gen_netdevs.c` writes it. -/
def getifaddrs (file : List Char) (buf : List Char) (count : Nat) : Option (List Char) :=
  if file.length < count then some (file ++ buf.drop file.length) else .none

end Verif.IpText
