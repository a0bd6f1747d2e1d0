import Verif.InetSockProps

/-!
# Internet sockets: cases in which the theorems apply, and cases in which the code departs from what is expected
-/

namespace Verif.InetSock

open Verif.Ports (Addr PType Net)

/-- 127.0.0.1, 10.0.0.1 (not an address of this machine), the unspecified address. -/
def lo : Addr := ⟨false, 2130706433⟩
def far : Addr := ⟨false, 167772161⟩
def anyA : Addr := ⟨false, 0⟩

/-- A machine with one address, and eight descriptors. -/
def env : Env := { devs := [lo, anyA], nfd := 8 }

/-- What `op` gives after the calls `ops` of a new system. -/
def out (e : Env) (ops : List Op) (op : Op) : Out := (step e (Sys.init.run e ops).s op).2

theorem out_reach (e : Env) (ops : List Op) : Reach e (Sys.init.run e ops) := Reach.run .init ops

/-- The state and addresses of the socket of a descriptor. -/
def view (e : Env) (ops : List Op) (fd : Nat) : Option Sock :=
  match (Sys.init.run e ops).s.tab fd with
  | some d => (Sys.init.run e ops).s.socks d.h
  | none => none

theorem view_at {e : Env} {ops : List Op} {fd : Nat} {k : Sock} (h : view e ops fd = some k) :
    ∃ d, At (Sys.init.run e ops).s fd d k := by
  unfold view at h
  split at h
  · rename_i d hd; exact ⟨d, hd, h⟩
  · simp at h

/-! ## The theorems apply -/

/-- A connection over which ten bytes come in two pieces, read with a look ahead. -/
def talk : List Op :=
  [.socket false true false false, .connect 0 (far, 80) none .ok,
   .recv 0 4 true none false none (.ok [1, 2, 3, 4] (far, 80)),
   .dup 0,
   .recv 1 2 false none false none (.fail .EAGAIN),
   .recv 0 6 false none false none (.ok [5, 6, 7, 8] (far, 80)),
   .recv 1 3 true none false none (.ok [9, 10, 11] (far, 80))]

/-- Eight bytes were returned, three more are held for the next call. -/
example : (Sys.init.run env talk).taken 0 = [1, 2, 3, 4, 5, 6, 7, 8] ∧
    (Sys.init.run env talk).given 0 = [1, 2, 3, 4, 5, 6, 7, 8, 9, 10, 11] ∧
    (view env talk 1).map (fun k => (k.ty.tcp, k.st, k.inner, k.peek)) = some (true, .connected, some 0, [9, 10, 11]) ∧
    (out env talk (.recv 0 2 false none false none (.fail .EAGAIN))).bytes = [9, 10] := by decide +kernel

/-- A server: bound, listening, and a client accepted. -/
def served : List Op :=
  [.socket false true false false, .bind 0 (lo, 80) none, .listen 0 none none none, .accept 0 (.conn (far, 1234))]

example : out env (served.take 3) (.accept 0 (.conn (far, 1234))) = { ret := .ok 1, addr := some (far, 1234) } ∧
    (view env (served.take 3) 0).map (fun k => (k.ty.tcp, k.st)) = some (true, .listen) ∧
    (view env served 1).map (fun k => (k.st, k.raddr, k.inner)) = some (.connected, some (far, 1234), some 1) := by
  decide +kernel

/-- After the reading side is shut down `recv` is refused and `send` is not. -/
example : out env (served ++ [.shutdown 1 0 none]) (.recv 1 5 false none false none (.ok [1] (far, 1234))) = { ret := .err .ENOTCONN } ∧
    out env (served ++ [.shutdown 1 0 none]) (.send 1 [7, 8] none (.ok 2)) = { ret := .ok 2, sent := some (1, [7, 8], none) } := by
  decide +kernel

/-- A datagram socket bound to a port. -/
def dgram : List Op := [.socket false false true false, .bind 0 (lo, 53) none]

example : out env dgram (.recv 0 3 false (some false) false none (.ok [1, 2, 3, 4] (far, 9))) =
      { ret := .ok 3, bytes := [1, 2, 3], addr := some (far, 9), got := some (0, [1, 2, 3]) } ∧
    out env dgram (.sendto 0 [5] (far, 9) none (.ok 1)) = { ret := .ok 1, sent := some (0, [5], some (far, 9)) } := by
  decide +kernel

/-! ## Departures -/

/-- C49.  A direction that was shut down opens again with a third `shutdown`: after write, read, read, `send` goes through to
the host. -/
theorem reopened_violated :
    out env (served ++ [.shutdown 1 1 none]) (.send 1 [7] none (.ok 1)) = { ret := .err .ENOTCONN } ∧
    out env (served ++ [.shutdown 1 1 none, .shutdown 1 0 none]) (.send 1 [7] none (.ok 1)) = { ret := .err .ENOTCONN } ∧
    out env (served ++ [.shutdown 1 1 none, .shutdown 1 0 none, .shutdown 1 0 none]) (.send 1 [7] none (.ok 1)) =
      { ret := .ok 1, sent := some (1, [7], none) } := by decide +kernel

/-- C49, C58.  `shutdown` on a socket that was never connected succeeds, and the next `send` or `recv` aborts the program. -/
theorem shutdown_unconnected_violated :
    out env [.socket false true false false] (.shutdown 0 0 none) = { ret := .ok 0 } ∧
    (out env [.socket false true false false, .shutdown 0 0 none] (.send 0 [7] none (.ok 1))).ret = .panic ∧
    (out env [.socket false true false false, .shutdown 0 1 none] (.recv 0 1 false none false none (.ok [1] (far, 80)))).ret =
      .panic := by decide +kernel

/-- C08.  With every descriptor in use, `accept` returns the number of the listening socket as if it were a connection. -/
theorem accept_full_violated :
    out { env with nfd := 1 } (served.take 3) (.accept 0 (.conn (far, 1234))) = { ret := .ok 0 } ∧
    (view { env with nfd := 1 } (served.take 3) 0).map (·.st) = some .listen := by decide +kernel

/-- C32, C64.  `connect` takes a port for the socket but does not record it: after `close` no socket is left and the port is
still taken. -/
theorem connect_port_leak_violated :
    (out env [.socket false true false false] (.connect 0 (far, 80) none .ok)).ret = .ok 0 ∧
    (out env [.socket false true false false, .connect 0 (far, 80) none .ok] (.close 0)).ret = .ok 0 ∧
    (∀ x, (Sys.init.run env [.socket false true false false, .connect 0 (far, 80) none .ok, .close 0]).s.socks x = none) ∧
    (Sys.init.run env [.socket false true false false, .connect 0 (far, 80) none .ok, .close 0]).s.net.used
      ⟨Ports.swap16 60999, ⟨false, true⟩⟩ ≠ none := by
  refine ⟨by decide +kernel, by decide +kernel, ?_, by decide +kernel⟩
  intro x
  cases hx : (Sys.init.run env [.socket false true false false, .connect 0 (far, 80) none .ok, .close 0]).s.socks x with
  | none => rfl
  | some k =>
    obtain ⟨fd, hfd⟩ := (socket_lives (out_reach env _) x).1 (by rw [hx]; simp)
    obtain ⟨d, hd, _⟩ := Option.map_eq_some_iff.1 hfd
    have hlt := ((out_reach env _).inv.tab fd d hd).1
    have hall : ∀ fd < 8, (Sys.init.run env [.socket false true false false, .connect 0 (far, 80) none .ok, .close 0]).s.tab fd = none := by
      decide +kernel
    rw [hall fd hlt] at hd
    simp at hd

/-- C64.  A `connect` that the other side refuses keeps its port, and trying again takes another. -/
theorem connect_retry_violated :
    (out env [.socket false true false false, .connect 0 (far, 80) none (.fail .ECONNREFUSED)]
      (.connect 0 (far, 80) none .ok)).ret = .ok 0 ∧
    ∀ q ∈ [60999, 60998], (Sys.init.run env [.socket false true false false, .connect 0 (far, 80) none (.fail .ECONNREFUSED),
      .connect 0 (far, 80) none .ok]).s.net.used ⟨Ports.swap16 q, ⟨false, true⟩⟩ ≠ none := by decide +kernel

/-- C64.  An accepted connection reports a local port other than the one the client connected to. -/
theorem accept_port_violated :
    (view env served 0).map (·.laddr) = some (some (lo, 80)) ∧
    (view env served 1).map (·.laddr) = some (some (lo, Ports.swap16 60999)) := by decide +kernel

/-- C64.  After a failed `bind` to an address of another machine, `listen` succeeds, `accept` takes a connection from the host
and loses it. -/
theorem accept_lost_violated :
    (out env [.socket false true false false] (.bind 0 (far, 80) none)).ret = .err .EADDRNOTAVAIL ∧
    (out env [.socket false true false false, .bind 0 (far, 80) none] (.listen 0 none none none)).ret = .ok 0 ∧
    (out env [.socket false true false false, .bind 0 (far, 80) none, .listen 0 none none none] (.accept 0 (.conn (far, 1234)))).ret =
      .err .EADDRNOTAVAIL ∧
    (Sys.init.run env [.socket false true false false, .bind 0 (far, 80) none, .listen 0 none none none,
      .accept 0 (.conn (far, 1234))]).s.nhost = 2 := by decide +kernel

/-- C58.  There, `shutdown` fails and takes the address away, and the next `accept` aborts the program. -/
theorem accept_abort_violated :
    (out env [.socket false true false false, .bind 0 (far, 80) none, .listen 0 none none none] (.shutdown 0 2 none)).ret =
      .err .EADDRNOTAVAIL ∧
    (out env [.socket false true false false, .bind 0 (far, 80) none, .listen 0 none none none, .shutdown 0 2 none]
      (.accept 0 (.conn (far, 1234)))).ret = .panic := by decide +kernel

/-- C64.  After a failed `bind` no other address can be bound. -/
theorem rebind_violated :
    (out env [.socket false true false false, .bind 0 (lo, 80) none, .socket false true false false] (.bind 1 (lo, 80) none)).ret =
      .err .EADDRINUSE ∧
    (out env [.socket false true false false, .bind 0 (lo, 80) none, .socket false true false false, .bind 1 (lo, 80) none]
      (.bind 1 (lo, 81) none)).ret = .err .EINVAL := by decide +kernel

/-- C32.  Closing a socket whose `bind` failed gives away the port of another socket, which a third can then bind. -/
theorem steal_port_violated :
    (out env [.socket false true false false, .bind 0 (lo, 80) none, .socket false true false false, .bind 1 (lo, 80) none, .close 1,
      .socket false true false false] (.bind 1 (lo, 80) none)).ret = .ok 0 ∧
    (view env [.socket false true false false, .bind 0 (lo, 80) none, .socket false true false false, .bind 1 (lo, 80) none, .close 1,
      .socket false true false false, .bind 1 (lo, 80) none] 0).map (·.laddr) = some (some (lo, 80)) ∧
    (view env [.socket false true false false, .bind 0 (lo, 80) none, .socket false true false false, .bind 1 (lo, 80) none, .close 1,
      .socket false true false false, .bind 1 (lo, 80) none] 1).map (·.laddr) = some (some (lo, 80)) := by decide +kernel

/-- C58.  `send` on a datagram socket connected to the unspecified address with port 0 never returns: the stack overflows. -/
theorem send_nowhere_violated :
    (out env [.socket false false false false] (.connect 0 (anyA, 0) none .ok)).ret = .ok 0 ∧
    (out env [.socket false false false false, .connect 0 (anyA, 0) none .ok] (.send 0 [7] none (.ok 1))).ret = .panic := by
  decide +kernel

/-- C64.  MSG_PEEK on a datagram socket is ignored: the call does what it does without it, and the datagram is gone. -/
theorem datagram_peek_violated (e : Env) (s : State) {fd : Nat} {d : Desc} {k : Sock} (ha : At s fd d k) (ht : k.ty.tcp = false)
    (n : Nat) (fam : Option Bool) (rdy : Bool) (hb : Option Errno) (hr : HRecv) :
    step e s (.recv fd n true fam rdy hb hr) = step e s (.recv fd n false fam rdy hb hr) := by
  simp only [step, recv, withSock, ha.tab, ha.sock, ht]
  rfl

/-- C64.  A connected datagram socket returns datagrams of anyone. -/
theorem datagram_source_violated :
    (view env [.socket false false false false, .connect 0 (far, 53) none .ok] 0).map (·.raddr) = some (some (far, 53)) ∧
    out env [.socket false false false false, .connect 0 (far, 53) none .ok] (.recv 0 3 false none false none (.ok [1] (lo, 9))) =
      { ret := .ok 1, bytes := [1], addr := some (lo, 9), got := some (0, [1]) } := by decide +kernel

/-- C64.  After a non-blocking `connect`, `send` is refused until a `recv` was tried, however long the connection has been
made. -/
theorem connect_then_send_violated :
    (out env [.socket false true true false] (.connect 0 (far, 80) none .inProgress)).ret = .err .EINPROGRESS ∧
    (out env [.socket false true true false, .connect 0 (far, 80) none .inProgress] (.send 0 [7] none (.ok 1))).ret = .err .ENOTCONN ∧
    (out env [.socket false true true false, .connect 0 (far, 80) none .inProgress, .recv 0 1 false none true none (.fail .EAGAIN)]
      (.send 0 [7] none (.ok 1))).ret = .ok 1 := by decide +kernel

/-- C64.  A first `recv` without an address on an IPv6 datagram socket is refused, because the port is looked for in the
other family. -/
theorem recv_v6_violated :
    (out env [.socket true false false false] (.recv 0 3 false none false none (.ok [1] (⟨true, 5⟩, 9)))).ret = .err .EINVAL := by
  decide +kernel

end Verif.InetSock
