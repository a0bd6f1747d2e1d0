import Verif.InetSockProps
import Verif.InetSockWitness

/-!
# The addresses an internet socket reports

`getsockname` and `getpeername` on the internet sockets of `InetSock`, as a program calls them, through the dispatcher.  What `copy_out_sockaddr`
does with the address is in `SockAddr` (C60).  Every descriptor of the table is an internet socket here, so that ENOTSOCK does not occur.
-/

namespace Verif.InetSock

open Verif.Ports (Addr PType Net)

/-- `getsockname`, `/repo/src/safeposix/dispatcher.rs` 531-550 and `/repo/src/safeposix/syscalls/net_calls.rs` 4297-4389.  The dispatcher hands
over an address of version 4 to be filled in; `set_addr` (`/repo/src/interface/comm.rs` 47-67) with the empty address of version 6 is
`unreachable!()` on it. -/
def getsockname (e : Env) (s : State) (fd : Int) : Ret × Option SA :=
  if fd < 0 ∨ fd ≥ e.nfd then (.err .EBADF, none)
  else
    match s.tab fd.toNat with
    | none => (.err .EBADF, none)
    | some d =>
      match s.socks d.h with
      | none => (.panic, none)
      | some k =>
        match k.laddr with
        | some a => (.ok 0, some a)
        | none => if k.ty.v6 then (.panic, none) else (.ok 0, some (⟨false, 0⟩, 0))

/-- `getpeername`, `/repo/src/safeposix/dispatcher.rs` 511-530 and `/repo/src/safeposix/syscalls/net_calls.rs` 4226-4271. -/
def getpeername (e : Env) (s : State) (fd : Int) : Ret × Option SA :=
  if fd < 0 ∨ fd ≥ e.nfd then (.err .EBADF, none)
  else
    match s.tab fd.toNat with
    | none => (.err .EBADF, none)
    | some d =>
      match s.socks d.h with
      | none => (.panic, none)
      | some k =>
        match k.raddr with
        | none => (.err .ENOTCONN, none)
        | some a => (.ok 0, some a)

end Verif.InetSock
