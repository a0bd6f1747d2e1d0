import Verif.SockOpt
import Verif.InetSock

/-!
# The project's tests of socket options and internet sockets, run on the model

`/repo/src/tests/networking_tests.rs`, transcribed by hand.  These are tests of the transcription from Rust to Lean, not proofs.  What
the host answers is an argument of the model; the answers put in here are those a test needs.  The calls of the threads are put in
one of the orders that the test allows; a descriptor a child inherits is a `dup` here.
-/

namespace Verif.Conform.Net

section options
open Verif.SockOpt

/-- The answers of a history. -/
def opts (s : State) : List Op → List (Ret × Int)
  | [] => []
  | o :: os => (step s o).2 :: opts (step s o).1 os

/-- A file as descriptor 3, a stream socket as descriptor 4. -/
def two : List Op := [.place 3 (some .other), .socket 0 1 false false, .place 4 (some (.sock 0))]

/-- `ut_lind_net_getsockopt_bad_input`, 3813-3870. -/
example : (opts init (two ++ [.get 10 solSocket soReuseport, .get (-1) solSocket soReuseport, .get 3 solSocket soReuseport,
    .get 4 30 soReuseport, .get 4 solUdp soReuseport, .get 4 solSocket 20, .get 4 solTcp 20])).drop 3 =
    [(.err .EBADF, 0), (.err .EBADF, 0), (.err .ENOTSOCK, 0), (.err .EOPNOTSUPP, 0), (.err .ENOPROTOOPT, 0), (.err .ENOPROTOOPT, 0),
     (.err .ENOPROTOOPT, 0)] := by decide +kernel

/-- `ut_lind_net_setsockopt_bad_input`, 3873-3928. -/
example : (opts init (two ++ [.set 10 solSocket soReuseport 0 none, .set (-1) solSocket soReuseport 0 none,
    .set 3 solSocket soReuseport 0 none, .set 4 30 soReuseport 0 none, .set 4 solUdp soReuseport 0 none, .set 4 solSocket 20 0 none,
    .set 4 solTcp 20 0 none])).drop 3 =
    [(.err .EBADF, 0), (.err .EBADF, 0), (.err .ENOTSOCK, 0), (.err .EOPNOTSUPP, 0), (.err .EOPNOTSUPP, 0), (.err .EOPNOTSUPP, 0),
     (.err .EOPNOTSUPP, 0)] := by decide +kernel

/-- `ut_lind_net_sockopt_bad_input_optname`, 3776-3810, is marked as ignored in the source: the program aborts on the first call, and so
does the model. -/
example : (opts init (two ++ [.get 4 solTcp 100])).drop 3 = [(.panic, 0)] := by decide +kernel

/-- `ut_lind_net_socketoptions`, 3931-4110. -/
example : (opts init (two ++
    [.env 0 true true 0, .get 4 solSocket soReuseport, .get 4 solSocket soLinger, .get 4 solSocket soKeepalive,
     .get 4 solSocket soLinger, .set 4 solSocket soLinger 1 none, .get 4 solSocket soLinger,
     .get 4 solSocket soReuseport, .get 4 solSocket soLinger, .get 4 solSocket soKeepalive,
     .get 4 solSocket soReuseport, .set 4 solSocket soReuseport 1 none, .get 4 solSocket soReuseport,
     .get 4 solSocket soReuseport, .get 4 solSocket soLinger, .get 4 solSocket soKeepalive,
     .get 4 solSocket soKeepalive, .set 4 solSocket soKeepalive 1 none,
     .get 4 solSocket soReuseport, .get 4 solSocket soLinger, .get 4 solSocket soKeepalive,
     .set 4 solSocket soSndbuf 1000 none, .get 4 solSocket soSndbuf, .set 4 solSocket soRcvbuf 2000 none, .get 4 solSocket soRcvbuf,
     .get 4 solSocket soReuseport, .get 4 solSocket soLinger, .get 4 solSocket soKeepalive,
     .set 4 solTcp tcpNodelay 1 none, .get 4 solTcp tcpNodelay])).drop 4 =
    [(.ok 0, 0), (.ok 0, 0), (.ok 0, 0), (.ok 0, 0), (.ok 0, 0), (.ok 0, 1),
     (.ok 0, 0), (.ok 0, 1), (.ok 0, 0),
     (.ok 0, 0), (.ok 0, 0), (.ok 0, 1),
     (.ok 0, 1), (.ok 0, 1), (.ok 0, 0),
     (.ok 0, 0), (.ok 0, 0),
     (.ok 0, 1), (.ok 0, 1), (.ok 0, 1),
     (.ok 0, 0), (.ok 0, 1000), (.ok 0, 0), (.ok 0, 2000),
     (.ok 0, 1), (.ok 0, 1), (.ok 0, 1),
     (.ok 0, 0), (.ok 0, 1)] := by decide +kernel

end options

section inet
open Verif.InetSock
open Verif.Ports (Addr)

/-- A machine with the two local addresses of the test device list and a small table. -/
def env : Env := { devs := [⟨false, 0x0100007f⟩, ⟨false, 0⟩], nfd := 16 }

/-- 127.0.0.1 with a port. -/
def lo (p : Nat) : SA := (⟨false, 0x0100007f⟩, p)

/-- The return values of a history. -/
def rets (s : State) : List Op → List Ret
  | [] => []
  | o :: os => (step env s o).2.ret :: rets (step env s o).1 os

/-- The bytes handed to the caller. -/
def datas (s : State) : List Op → List (List UInt8)
  | [] => []
  | o :: os => (step env s o).2.bytes :: datas (step env s o).1 os

/-- `ut_lind_net_bind`, 11-44. -/
example : rets init [.socket false true false false, .bind 0 (lo 5000) none, .bind 0 (lo 5000) none, .socket false true false false,
    .bind 1 (lo 5000) none, .socket false false false false, .bind 2 (lo 5000) none] =
    [.ok 0, .ok 0, .err .EINVAL, .ok 1, .err .EADDRINUSE, .ok 2, .ok 0] := by decide +kernel

/-- `ut_lind_net_bind_multiple`, 455-497. -/
example : rets init [.socket false true false false, .setReuse 0, .bind 0 (lo 5000) none, .socket false true false false, .setReuse 1,
    .bind 1 (lo 5000) none, .listen 0 none none none, .listen 1 none none none, .socket false false false false,
    .bind 2 (lo 5000) none] =
    [.ok 0, .ok 0, .ok 0, .ok 1, .ok 0, .ok 0, .ok 0, .ok 0, .ok 2, .ok 0] := by decide +kernel

/-- `ut_lind_net_connect_basic_udp`, 501-535: a datagram socket can be connected again. -/
example : rets init [.socket false false false false, .connect 0 (lo 5000) none .ok, .connect 0 (lo 6000) none .ok] =
    [.ok 0, .ok 0, .ok 0] := by decide +kernel

/-- `ut_lind_net_accept_errs`, 1182-1250. -/
example : rets init [.socket false true false false, .socket false true false false, .bind 0 (lo 5000) none, .dup 0,
    .accept 2 (.conn (lo 7)), .listen 2 none none none, .connect 1 (lo 5000) none .ok, .accept 2 (.conn (lo 40000)), .close 2,
    .accept 2 (.conn (lo 40000)), .close 0] =
    [.ok 0, .ok 1, .ok 0, .ok 2, .err .EINVAL, .ok 0, .ok 0, .ok 3, .ok 0, .err .EBADF, .ok 0] := by decide +kernel

/-- `ut_lind_net_listen_more_than_backlog`, 1253-1311. -/
example : rets init [.socket false true false false, .socket false true true false, .socket false true true false, .bind 0 (lo 5000) none,
    .listen 0 none none none, .dup 0, .connect 1 (lo 5000) none .inProgress, .connect 2 (lo 5000) none .inProgress, .close 3, .close 0] =
    [.ok 0, .ok 1, .ok 2, .ok 0, .ok 0, .ok 3, .err .EINPROGRESS, .err .EINPROGRESS, .ok 0, .ok 0] := by decide +kernel

/-- `ut_lind_net_listen_udp_socket`, 1314-1341. -/
example : rets init [.socket false false false false, .bind 0 (lo 5000) none, .listen 0 none none none, .close 0] =
    [.ok 0, .ok 0, .err .EOPNOTSUPP, .ok 0] := by decide +kernel

/-- `ut_lind_net_send_no_peer_address`, 2442-2493: without a peer a datagram socket cannot `send`. -/
example : rets init [.socket false false false false, .send 0 [65, 66] none (.ok 2)] = [.ok 0, .err .ENOTCONN] := by decide +kernel

/-- `ut_lind_net_shutdown_bad_input`, 3258-3318, the calls on sockets. -/
example : rets init [.shutdown 10 0 none, .socket false true false false, .bind 0 (lo 5000) none, .listen 0 none none none,
    .shutdown 0 10 none] = [.err .EBADF, .ok 0, .ok 0, .ok 0, .err .EINVAL] := by decide +kernel

/-- `ut_lind_net_shutdown`, 3597-3662. -/
example : rets init [.socket false true false false, .socket false true false false, .bind 0 (lo 5000) none, .listen 0 none none none,
    .dup 0, .connect 1 (lo 5000) none .ok, .accept 2 (.conn (lo 40000)), .shutdown 3 0 none, .send 3 (List.replicate 13 65) none (.ok 13),
    .shutdown 3 2 none, .close 2] =
    [.ok 0, .ok 1, .ok 0, .ok 0, .ok 2, .ok 0, .ok 3, .ok 0, .ok 13, .ok 0, .ok 0] := by decide +kernel

/-- `ut_lind_net_udp_bad_bind`, 4401-4441. -/
example : rets init [.socket false false false false, .bind 0 (lo 5000) none, .connect 0 (lo 5000) none .ok, .bind 0 (lo 5000) none] =
    [.ok 0, .ok 0, .ok 0, .err .EINVAL] := by decide +kernel

/-- `ut_lind_net_udp_connect`, 4531-4589; the host delivers the datagram. -/
example : rets init [.socket false false false false, .socket false false false false, .bind 0 (lo 5000) none, .dup 0,
    .connect 1 (lo 5000) none .ok, .send 1 (List.replicate 16 65) none (.ok 16),
    .recv 2 16 false none false none (.ok (List.replicate 16 65) (lo 40000)), .close 2] =
    [.ok 0, .ok 1, .ok 0, .ok 2, .ok 0, .ok 16, .ok 16, .ok 0] := by decide +kernel

/-- The part of `ut_lind_net_recvfrom`, 1915-2127, and `ut_lind_net_bind_on_zero`, 48-452, about peeking: the host hands over what it has
once, and the bytes peeked at come again. -/
def peeks : List Op :=
  [.socket false true false false, .bind 0 (lo 5000) none, .listen 0 none none none, .accept 0 (.conn (lo 40000)),
   .recv 1 10 true none false none (.ok (List.replicate 10 65) (lo 40000)),
   .recv 1 10 true none false none (.fail .EAGAIN),
   .recv 1 20 true none false none (.ok (List.replicate 10 66) (lo 40000)),
   .recv 1 20 true none false none (.fail .EAGAIN),
   .recv 1 100 false none false none (.ok (List.replicate 80 67) (lo 40000))]

example : (datas init peeks).drop 4 =
    [List.replicate 10 65, List.replicate 10 65, List.replicate 10 65 ++ List.replicate 10 66,
     List.replicate 10 65 ++ List.replicate 10 66, List.replicate 10 65 ++ List.replicate 10 66 ++ List.replicate 80 67] := by
  decide +kernel

end inet

end Verif.Conform.Net
