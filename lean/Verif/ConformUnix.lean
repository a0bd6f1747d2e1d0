import Verif.UnixSock
import Verif.Kernel

/-!
# The project's tests of unix stream sockets, run on the model

`/repo/src/tests/networking_tests.rs` and `/repo/src/tests/ipc_tests.rs`, transcribed by hand.  These are tests of the transcription from
Rust to Lean, not proofs.  The descriptors of all processes have numbers of their own here: 1-9 are those of cage 1, 11-19 those of cage 2
and 21-29 those of cage 3.  The calls of the threads are put in one of the orders that the test allows.
-/

namespace Verif.Conform.Unix
open Verif.UnixSock Verif.Path

/-- What the caller sees of a call: the return value, the bytes stored, the address stored. -/
structure Seen where
  ret : Ret
  bytes : List UInt8 := []
  addr : Option Str := none
  deriving DecidableEq, Repr

/-- The answers of a history. -/
def ans (s : State) : List Op → List Seen
  | [] => []
  | o :: os => ⟨(step s o).2.ret, (step s o).2.bytes, (step s o).2.addr⟩ :: ans (step s o).1 os

/-- The answers from the start of the library. -/
def from0 (l : List Op) : List Seen := ans (UnixSock.init Kernel.init.fs) l

/-- The working directory of the tests. -/
def cwd : Str := [47]
/-- `ok n`. -/
def ok (n : Int) : Seen := ⟨.ok n, [], none⟩
/-- Bytes came. -/
def got (bs : List UInt8) : Seen := ⟨.ok bs.length, bs, none⟩
/-- An address came. -/
def at' (n : Int) (a : Str) : Seen := ⟨.ok n, [], some a⟩
/-- The call waits. -/
def waits : Seen := ⟨.blocked, [], none⟩
/-- `n` times a byte. -/
def rep (n : Nat) (c : UInt8) : List UInt8 := List.replicate n c
/-- The bytes of a text. -/
def txt (s : String) : List UInt8 := s.toList.map (fun c => c.toNat.toUInt8)

/-- `ut_lind_net_getpeername_unix`, `/repo/src/tests/networking_tests.rs` 690-757: the client's peer is the server's address; the
server's peer is an address that is not empty. -/
example : from0
    [.socket 1 false, .bind 1 cwd (txt "server_getpeername"), .forkFd 1 11, .close 11 cwd, .socket 12 false, .listen 1,
     .connect 12 cwd (txt "server_getpeername"), .accept 1 (some 2) cwd, .getpeername 12, .getpeername 2, .close 12 cwd] =
    [ok 1, ok 0, ok 11, ok 0, ok 12, ok 0, waits, at' 2 (txt "/sock0"), at' 0 (txt "server_getpeername"), at' 0 (txt "/sock0"),
     ok 0] := by
  decide +kernel

/-- `ut_lind_net_getsockname_unix`, 1032-1122. -/
example : from0
    [.socket 1 false, .bind 1 cwd (txt "server_getsockname"), .getsockname 1, .forkFd 1 11, .close 11 cwd, .socket 12 false,
     .listen 1, .connect 12 cwd (txt "server_getsockname"), .accept 1 (some 2) cwd, .getsockname 12, .getsockname 2] =
    [ok 1, ok 0, at' 0 (txt "server_getsockname"), ok 11, ok 0, ok 12, ok 0, waits, at' 2 (txt "/sock0"), at' 0 (txt "/sock0"),
     at' 0 (txt "server_getsockname")] := by
  decide +kernel

/-- The calls of `ut_lind_net_domain_socket`, 4792-5021, and `ut_lind_ipc_domain_socket`,
`/repo/src/tests/ipc_tests.rs` 81-309; `ut_lind_net_recvfrom_unix`, 2130-2337, differs in the names and checks less. -/
def domain : List Op :=
  [.socket 1 false, .socket 2 false, .bind 1 cwd (txt "/server.sock"), .bind 2 cwd (txt "/client.sock"), .listen 1,
   .forkFd 1 11, .forkFd 2 12, .connect 2 cwd (txt "/server.sock"), .accept 11 (some 13) cwd,
   .send 2 (rep 100 65), .recv 13 100 true, .recv 13 100 false,
   .send 2 (rep 100 65), .recv 13 20 false, .recv 13 20 true, .recv 13 80 false,
   .send 2 (rep 100 65),
   .recv 13 10 true, .recv 13 10 true, .recv 13 10 true, .recv 13 10 true,
   .recv 13 20 true, .recv 13 20 true, .recv 13 20 true, .recv 13 20 true,
   .recv 13 30 true, .recv 13 30 true, .recv 13 30 true, .recv 13 30 true,
   .recv 13 40 true, .recv 13 40 true, .recv 13 40 true, .recv 13 40 true,
   .recv 13 100 false,
   .send 2 (rep 50 65), .recv 13 50 true, .close 13 cwd, .close 11 cwd, .close 12 cwd, .close 2 cwd, .close 1 cwd]

example : from0 domain =
    [ok 1, ok 2, ok 0, ok 0, ok 0, ok 11, ok 12, waits, at' 13 (txt "/client.sock"),
     ok 100, got (rep 100 65), got (rep 100 65),
     ok 100, got (rep 20 65), got (rep 20 65), got (rep 80 65),
     ok 100,
     got (rep 10 65), got (rep 10 65), got (rep 10 65), got (rep 10 65),
     got (rep 20 65), got (rep 20 65), got (rep 20 65), got (rep 20 65),
     got (rep 30 65), got (rep 30 65), got (rep 30 65), got (rep 30 65),
     got (rep 40 65), got (rep 40 65), got (rep 40 65), got (rep 40 65),
     got (rep 100 65),
     ok 50, got (rep 50 65), ok 0, ok 0, ok 0, ok 0, ok 0] := by
  decide +kernel

/-- `ut_lind_net_shutdown_unix`, 3321-3466: after `SHUT_RD` and `SHUT_WR` of the client the server still reads what was sent, then the
end; after `SHUT_RDWR` a send fails. -/
example : from0
    [.socket 1 false, .bind 1 cwd (txt "server_shutdown"), .listen 1, .forkFd 1 11, .forkFd 1 21,
     .socket 12 false, .connect 12 cwd (txt "server_shutdown"), .accept 1 (some 2) cwd,
     .send 12 (txt "client send"), .recv 2 11 false, .send 2 (txt "server send"), .recv 12 11 false, .send 2 (txt "shutdown"),
     .shutdown 12 0, .send 12 (txt "before SHUT_WR"), .shutdown 12 1, .close 11 cwd, .close 12 cwd,
     .recv 2 14 false, .recv 2 14 false, .close 2 cwd,
     .socket 22 false, .connect 22 cwd (txt "server_shutdown"), .accept 1 (some 2) cwd,
     .send 22 (txt "client send"), .recv 2 11 false, .send 2 (txt "server send"), .recv 22 11 false,
     .shutdown 22 2, .send 22 (txt "client send")] =
    [ok 1, ok 0, ok 0, ok 11, ok 21, ok 12, waits, at' 2 (txt "/sock0"),
     ok 11, got (txt "client send"), ok 11, got (txt "server send"), ok 8,
     ok 0, ok 14, ok 0, ok 0, ok 0, got (txt "before SHUT_WR"), ok 0, ok 0,
     ok 22, waits, at' 2 (txt "/sock1"), ok 11, got (txt "client send"), ok 11, got (txt "server send"),
     ok 0, ⟨.err .EBADF, [], none⟩] := by
  decide +kernel

/-- `ut_lind_net_socketpair`, 4113-4178, and `ut_lind_ipc_socketpair`, `/repo/src/tests/ipc_tests.rs` 312-355. -/
example : from0
    [.socketpair 1 2 false cwd, .recv 2 10 false, .send 1 (txt "test"), .recv 2 10 false, .send 2 (txt "Socketpair Test"),
     .recv 1 15 false, .close 1 cwd, .close 2 cwd] =
    [ok 0, waits, ok 4, got (txt "test"), ok 15, got (txt "Socketpair Test"), ok 0, ok 0] := by
  decide +kernel

/-- `ut_lind_net_socketpair_nonblocking`, 4295-4398: `EAGAIN` until the bytes are there. -/
example : from0
    [.socketpair 1 2 true cwd, .recv 2 10 false, .send 1 (txt "test"), .recv 2 10 false, .recv 1 15 false,
     .send 2 (txt "Socketpair Test"), .recv 1 15 false, .close 1 cwd, .close 2 cwd] =
    [ok 0, ⟨.err .EAGAIN, [], none⟩, ok 4, got (txt "test"), ⟨.err .EAGAIN, [], none⟩, ok 15, got (txt "Socketpair Test"), ok 0,
     ok 0] := by
  decide +kernel

/-- `ut_lind_ipc_writev2`, `/repo/src/tests/ipc_tests.rs` 358-430. -/
example : from0
    [.socketpair 1 2 false cwd, .writev 1 [txt "test"], .recv 2 10 false, .writev 2 [rep 100 65, rep 100 66, rep 100 67],
     .recv 1 300 false, .close 1 cwd, .close 2 cwd] =
    [ok 0, ok 4, got (txt "test"), ok 300, got (rep 100 65 ++ rep 100 66 ++ rep 100 67), ok 0, ok 0] := by
  decide +kernel

end Verif.Conform.Unix
