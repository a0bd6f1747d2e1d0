import Verif.UnixSockLemmas

/-!
# What was sent and received on the connections of unix stream sockets

A *direction* is one of the two byte streams of a connection.  `Sys` adds to the state the history of every direction: the bytes
accepted by `send`, `write` and `writev`, the bytes handed to callers by `recv` and `read` (a peek hands over nothing), and the
sockets that did so.
-/

namespace Verif.UnixSock

open Verif.Path Verif.Fs

/-- The direction the socket behind descriptor `d` sends on. -/
def outOf (s : State) (d : Nat) : Option Nat := (s.fds d).bind fun fd => hout s fd.h
/-- The direction the socket behind descriptor `d` receives on. -/
def inOf (s : State) (d : Nat) : Option Nat := (s.fds d).bind fun fd => hin s fd.h
/-- The socket behind descriptor `d`. -/
def sockOf (s : State) (d : Nat) : Option Nat := (s.fds d).map (·.h)

/-- The state with the history of every direction. -/
structure Sys where
  s : State
  sent : Nat → List UInt8 := fun _ => []
  rcvd : Nat → List UInt8 := fun _ => []
  senders : Nat → List Nat := fun _ => []
  receivers : Nat → List Nat := fun _ => []

/-- `bs` was sent on descriptor `d`. -/
def Sys.noteSent (S : Sys) (d : Nat) (bs : List UInt8) : Sys :=
  match outOf S.s d, sockOf S.s d with
  | some p, some h => { S with sent := upd S.sent p (S.sent p ++ bs), senders := upd S.senders p (S.senders p ++ [h]) }
  | _, _ => S

/-- `bs` was received on descriptor `d`. -/
def Sys.noteRcvd (S : Sys) (d : Nat) (bs : List UInt8) : Sys :=
  match inOf S.s d, sockOf S.s d with
  | some p, some h => { S with rcvd := upd S.rcvd p (S.rcvd p ++ bs), receivers := upd S.receivers p (S.receivers p ++ [h]) }
  | _, _ => S

/-- One call, with the history. -/
def Sys.step (S : Sys) (op : Op) : Sys :=
  let r := UnixSock.step S.s op
  let S' := match op with
    | .send d data => S.noteSent d (data.take r.2.pushed)
    | .writev d iovs => S.noteSent d (iovs.flatten.take r.2.pushed)
    | .recv d _ false => S.noteRcvd d r.2.bytes
    | _ => S
  { S' with s := r.1 }

/-- A socket being connected holds no peeked bytes.  Without this the bytes peeked on an earlier connection of the same socket are
delivered on the new one, see `peek_reconnect_violated`. -/
def Clean (s : State) : Op → Prop
  | .connect d _ _ => ∀ fd, s.fds d = some fd → (s.handles fd.h).peek = []
  | _ => True

/-- The states reached from a start without sockets, on any file system. -/
inductive Reach : Sys → Prop
  | start (fs : Fs) : Reach { s := init fs }
  | step {S : Sys} (op : Op) : Reach S → Clean S.s op → Reach (S.step op)

end Verif.UnixSock
