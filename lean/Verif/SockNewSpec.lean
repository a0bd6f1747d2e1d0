/-!
# What a caller of `socket` and `socketpair` asks for

Independent of the model: the numbers of the manual page, added up rather than masked, and the lowest free place of a table.
-/

namespace Verif.SockNewSpec

/-- The two kinds of socket that are supported. -/
inductive Kind where
  | stream
  | dgram
  deriving DecidableEq, Repr

/-- `SOCK_STREAM` is 1 and `SOCK_DGRAM` is 2. -/
def Kind.num : Kind → Nat
  | .stream => 1
  | .dgram => 2

/-- TCP has protocol number 6 and UDP 17. -/
def Kind.proto : Kind → Nat
  | .stream => 6
  | .dgram => 17

/-- `SOCK_NONBLOCK` and `O_NONBLOCK` are 04000. -/
def nonblock (b : Bool) : Nat := if b then 2048 else 0

/-- `SOCK_CLOEXEC` and `O_CLOEXEC` are 02000000. -/
def cloexec (b : Bool) : Nat := if b then 524288 else 0

/-- The type argument asks for kind `k`, with the flags `nb` and `ce`. -/
structure Asks (socktype : BitVec 32) (k : Kind) (nb ce : Bool) : Prop where
  eq : socktype.toNat = k.num + nonblock nb + cloexec ce

/-- The protocol argument is 0, or the one of the kind. -/
structure Proto (protocol : BitVec 32) (k : Kind) : Prop where
  ok : protocol.toNat = 0 ∨ protocol.toNat = k.proto

/-- The domain argument is unix (1), internet (2) or internet version 6 (10). -/
structure Domain (domain : BitVec 32) : Prop where
  ok : domain.toNat = 1 ∨ domain.toNat = 2 ∨ domain.toNat = 10

/-- The three arguments of `socket` ask for a socket of kind `k` with flags `nb` and `ce` in a domain there is. -/
structure Wants (domain socktype protocol : BitVec 32) (k : Kind) (nb ce : Bool) : Prop where
  domain : Domain domain
  type : Asks socktype k nb ce
  proto : Proto protocol k

/-- The three arguments of `socketpair` ask for a pair of connected unix stream sockets. -/
structure WantsPair (domain socktype protocol : BitVec 32) (nb ce : Bool) : Prop where
  domain : domain.toNat = 1
  type : Asks socktype .stream nb ce
  proto : Proto protocol .stream

/-- Number `n` is the lowest that a table of 1024 has free. -/
structure Lowest {α : Type} (t : Nat → Option α) (n : Nat) : Prop where
  bound : n < 1024
  free : t n = none
  least : ∀ m < n, t m ≠ none

/-- The table has no free number. -/
structure Full {α : Type} (t : Nat → Option α) : Prop where
  all : ∀ n < 1024, t n ≠ none

end Verif.SockNewSpec
