import Verif.Select

/-!
# Model of descriptor sets in memory, and of select on them

`/repo/src/interface/comm.rs` 538-641, `/repo/src/safeposix/net.rs` 534-575, `/repo/src/safeposix/syscalls/net_calls.rs` 3364-3721.

`Select.lean` treats a descriptor set as a predicate and the host's answer as a filter.  Here the sets are what the caller and the
host see: sixteen words of 64 bits, found through pointers, with the translation between the host's descriptors and the caller's as
the code does it, one bit after the other.
-/

namespace Verif.FdBits
open Verif.Select

/-- `libc::fd_set`: `fds_bits`, an array of sixteen words.  (`/repo/src/interface/comm.rs` 538-539.) -/
abbrev Raw := List (BitVec 64)

/-- `FD_ZERO`, `/repo/src/interface/comm.rs` 542-548. -/
def zero : Raw := List.replicate 16 0#64

/-- The word of a descriptor number: `fd as usize / 64`.  A negative number becomes a large one. -/
def wordOf (fd : Int) : Nat := (BitVec.ofInt 64 fd).toNat / 64

/-- The bit of a descriptor number in its word: `1 << (fd as usize % 64)`. -/
def bitOf (fd : Int) : BitVec 64 := 1#64 <<< ((BitVec.ofInt 64 fd).toNat % 64)

/-- `FD_ISSET`, `/repo/src/interface/comm.rs` 577-579; `none`: the index is outside the array and the call panics. -/
def isSet (r : Raw) (fd : Int) : Option Bool := r[wordOf fd]?.map fun w => w &&& bitOf fd != 0#64

/-- `FD_SET`, `/repo/src/interface/comm.rs` 572-574. -/
def set (r : Raw) (fd : Int) : Option Raw := r[wordOf fd]?.map fun w => List.set r (wordOf fd) (w ||| bitOf fd)

/-- `FD_CLR`, `/repo/src/interface/comm.rs` 567-569. -/
def clear (r : Raw) (fd : Int) : Option Raw := r[wordOf fd]?.map fun w => List.set r (wordOf fd) (w &&& ~~~ bitOf fd)

/-- `is_empty`, `/repo/src/interface/comm.rs` 581-586; over words instead of bytes. -/
def isEmpty (r : Raw) : Bool := r.all (· == 0#64)

/-- What `select_readfds` works on: `new_readfds`, `*retval`, and the three parts of `SelectInetInfo`,
`/repo/src/safeposix/net.rs` 534-548. -/
structure Acc where
  set : Raw
  ret : Nat
  raws : List (Int × Nat)
  kernel : Raw
  high : Int

/-- `new_readfds.set(fd); *retval += 1`. -/
def Acc.hit (a : Acc) (fd : Nat) : Except Ret Acc :=
  match FdBits.set a.set fd with
  | none => .error .panic
  | some s => .ok { a with set := s, ret := a.ret + 1 }

/-- One open descriptor in `select_readfds`, `/repo/src/safeposix/syscalls/net_calls.rs` 3474-3589. -/
def readOne (fd : Nat) (v : View) (a : Acc) : Except Ret Acc :=
  match v with
  | .file => a.hit fd
  | .epoll => a.hit fd
  | .stream => .ok a
  | .pipe p => if p.selectRead then a.hit fd else .ok a
  | .unix u =>
    match (if u.st = .inProgress then u.asking.map (!·) else some false) with
    | none => .error .panic
    | some new =>
      if u.st = .listen then
        match u.request with
        | none => .error .panic
        | some true => a.hit fd
        | some false => .ok a
      else if u.st = .connected ∨ new = true then
        match u.inp with
        | none => .error .panic
        | some p => if p.selectRead then a.hit fd else .ok a
      else .ok a
  | .inet raw _ =>
    if raw < 0 then .ok a
    else
      match FdBits.set a.kernel raw with
      | none => .error .panic
      | some k => .ok { a with kernel := k, raws := a.raws ++ [(raw, fd)], high := if raw > a.high then raw else a.high }
  | .other => .error (.err .EINVAL)

/-- The loop of `select_readfds`, `/repo/src/safeposix/syscalls/net_calls.rs` 3463-3593. -/
def readLoop (req : Raw) (obs : Nat → Option View) : List Nat → Acc → Except Ret Acc
  | [], a => .ok a
  | fd :: fds, a =>
    match isSet req fd with
    | none => .error .panic
    | some false => readLoop req obs fds a
    | some true =>
      match obs fd with
      | none => .error (.err .EBADF)
      | some v =>
        match readOne fd v a with
        | .error r => .error r
        | .ok a' => readLoop req obs fds a'

/-- `set_from_kernelfds_and_translate`, `/repo/src/interface/comm.rs` 588-606. -/
def translate (kernel : Raw) (raws : List (Int × Nat)) : List Nat → Raw → Option Raw
  | [], s => some s
  | fd :: fds, s =>
    match isSet kernel fd with
    | none => none
    | some false => translate kernel raws fds s
    | some true =>
      match raws.find? (fun t => t.1 == (fd : Int)) with
      | none => translate kernel raws fds s
      | some t =>
        match FdBits.set s t.2 with
        | none => none
        | some s' => translate kernel raws fds s'

/-- What the host's `select` does to the set it is given: it leaves the descriptors below `nfds` that are ready
(`/repo/src/interface/comm.rs` 616-641). -/
def hostLeaves (ready : Int → Bool) (k : Raw) : List Nat → Raw → Raw
  | [], s => s
  | fd :: fds, s => hostLeaves ready k fds (if isSet k fd = some true ∧ ready fd = true then (FdBits.set s fd).getD s else s)

/-- The number it returns. -/
def hostCount (ready : Int → Bool) (k : Raw) (nfds : Nat) : Nat :=
  (List.range nfds).countP fun (fd : Nat) => isSet k fd == some true && ready fd

/-- `update_readfds_from_kernel_select`, `/repo/src/safeposix/net.rs` 550-575, and its use,
`/repo/src/safeposix/syscalls/net_calls.rs` 3598-3604. -/
def hostPart (h : Host) (a : Acc) : Except Ret Acc :=
  if isEmpty a.kernel then .ok a
  else if h.fail then (if a.ret = 0 then .error (.err .EPERM) else .ok a)
  else
    let n := (a.high + 1).toNat
    let c := hostCount h.ready a.kernel n
    if c > 0 then
      match translate (hostLeaves h.ready a.kernel (List.range n) zero) a.raws (List.range n) a.set with
      | none => .error .panic
      | some s => .ok { a with set := s, ret := a.ret + c }
    else .ok a

/-- `select_readfds`, `/repo/src/safeposix/syscalls/net_calls.rs` 3453-3607. -/
def selectRead (n : Nat) (req : Raw) (p : Pass) (s : Raw) (ret : Nat) : Except Ret (Raw × Nat) :=
  match readLoop req p.rd (List.range n) { set := s, ret := ret, raws := [], kernel := zero, high := 0 } with
  | .error r => .error r
  | .ok a =>
    match hostPart p.host a with
    | .error r => .error r
    | .ok a' => .ok (a'.set, a'.ret)

/-- `select_writefds`, `/repo/src/safeposix/syscalls/net_calls.rs` 3615-3721. -/
def writeLoop (req : Raw) (obs : Nat → Option View) : List Nat → Raw × Nat → Except Ret (Raw × Nat)
  | [], a => .ok a
  | fd :: fds, a =>
    match isSet req fd with
    | none => .error .panic
    | some false => writeLoop req obs fds a
    | some true =>
      match obs fd with
      | none => .error (.err .EBADF)
      | some v =>
        match writeOne v with
        | .error r => .error r
        | .ok false => writeLoop req obs fds a
        | .ok true =>
          match FdBits.set a.1 fd with
          | none => .error .panic
          | some s => writeLoop req obs fds (s, a.2 + 1)

/-- The exception set, `/repo/src/safeposix/syscalls/net_calls.rs` 3409-3421. -/
def exceptLoop (req : Raw) (obs : Nat → Option View) : List Nat → Option Ret
  | [] => none
  | fd :: fds =>
    match isSet req fd with
    | none => some .panic
    | some false => exceptLoop req obs fds
    | some true => if (obs fd).isNone then some (.err .EBADF) else exceptLoop req obs fds

/-- The caller's memory, as far as it holds descriptor sets: what is at an address.  Sets that overlap without being the same are left
out. -/
abbrev Mem := Nat → Raw

/-- The three pointers of a call; null is `none`.  The sets are used where they are (`new_from_ptr`,
`/repo/src/interface/comm.rs` 550-553). -/
structure Args where
  nfds : Int
  rd : Option Nat
  wr : Option Nat
  ex : Option Nat

/-- `new_readfds`, `new_writefds` and `retval`. -/
structure Sets where
  rd : Raw
  wr : Raw
  ret : Nat

/-- The read set, if there is one, `/repo/src/safeposix/syscalls/net_calls.rs` 3392-3397: it is read from the caller's memory in every
pass. -/
def readPart (n : Nat) (m : Mem) (q : Option Nat) (p : Pass) (a : Sets) : Except Ret Sets :=
  match q with
  | none => .ok a
  | some q =>
    match selectRead n (m q) p a.rd a.ret with
    | .error x => .error x
    | .ok (rd, c) => .ok { a with rd := rd, ret := c }

/-- The write set, `/repo/src/safeposix/syscalls/net_calls.rs` 3400-3405. -/
def writePart (n : Nat) (m : Mem) (q : Option Nat) (p : Pass) (a : Sets) : Except Ret Sets :=
  match q with
  | none => .ok a
  | some q =>
    match writeLoop (m q) p.wr (List.range n) (a.wr, a.ret) with
    | .error x => .error x
    | .ok (wr, c) => .ok { a with wr := wr, ret := c }

/-- The exception set, `/repo/src/safeposix/syscalls/net_calls.rs` 3409-3421. -/
def exceptPart (n : Nat) (m : Mem) (q : Option Nat) (p : Pass) (a : Sets) : Except Ret Sets :=
  match q with
  | none => .ok a
  | some q =>
    match exceptLoop (m q) p.ex (List.range n) with
    | some x => .error x
    | none => .ok a

/-- One pass, `/repo/src/safeposix/syscalls/net_calls.rs` 3392-3421. -/
def pass (n : Nat) (m : Mem) (g : Args) (p : Pass) (a : Sets) : Except Ret Sets :=
  match readPart n m g.rd p a with
  | .error x => .error x
  | .ok a1 =>
    match writePart n m g.wr p a1 with
    | .error x => .error x
    | .ok a2 => exceptPart n m g.ex p a2

/-- `copy_from` for a set that was given, `/repo/src/interface/comm.rs` 555-563. -/
def store (m : Mem) (q : Option Nat) (r : Raw) : Mem := match q with | none => m | some q => fun a => if a = q then r else m a

/-- The loop of `select_syscall`, `/repo/src/safeposix/syscalls/net_calls.rs` 3389-3444. -/
def selectLoop (n : Nat) (m : Mem) (g : Args) : List Pass → Sets → Mem × Ret
  | [], _ => (m, .blocked)
  | p :: ps, a =>
    match pass n m g p a with
    | .error x => (m, x)
    | .ok a' =>
      if a'.ret ≠ 0 ∨ p.late = true then (store (store m g.rd a'.rd) g.wr a'.wr, .ok a'.ret)
      else if p.sig then (m, .err .EINTR)
      else selectLoop n m g ps a'

/-- `select_syscall`, `/repo/src/safeposix/syscalls/net_calls.rs` 3364-3445. -/
def select (m : Mem) (g : Args) (ps : List Pass) : Mem × Ret :=
  if g.nfds < 0 ∨ g.nfds ≥ fdSetMax then (m, .err .EINVAL)
  else selectLoop g.nfds.toNat m g ps { rd := zero, wr := zero, ret := 0 }

/-! ## Specification -/

/-- The memory holds whole sets. -/
def Whole (m : Mem) : Prop := ∀ q, (m q).length = 16

/-- The set a caller means: descriptor `d` is in it if bit `d mod 64` of word `d / 64` is on. -/
def meaning (r : Raw) : FdSet := fun d => match r[d / 64]? with | none => false | some w => w.getLsbD (d % 64)

end Verif.FdBits
