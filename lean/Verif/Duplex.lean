/-!
# Connected Unix stream sockets used by several threads

A connection has two sockets, `2i` and `2i+1`, each the peer of the other, with a buffer for each direction.  Any number of descriptors of any
cages may belong to a socket (`dup`, `fork`); the model numbers them all through.  A call takes the descriptor's entry in the table for
writing, then the handle of the socket, and keeps both until it returns, apart from one place: a `recv` that finds nothing now and then lets go of
the handle (`bump`), but not of the entry.

Simplifications: the references that a pipe counts are taken to be the descriptors there are (`UnixRefs` shows when they are); no MSG_PEEK (see
`UnixSock`), no `shutdown`, no signals and no cancellation; select and poll, which take both locks for reading, take them as the others do;
who of those that wait for a lock gets it is left open, and `bump` always lets go of the lock; the locks inside a pipe are left out, as
each end is only used by who has the handle of its socket; `close` takes the entry out of the table in the same step as the rest (see
`FdConc` for the two apart).
-/

namespace Verif.Duplex

/-- Which socket a descriptor belongs to, the descriptors there are, how much a pipe holds (`UDSOCK_CAPACITY`,
`/repo/src/safeposix/syscalls/net_constants.rs` 11, 212992) and how much room a write wants to find (`PAGE_SIZE`, `/repo/src/interface/pipe.rs` 39, 4096). -/
structure Cfg where
  of : Nat → Nat
  fds : List Nat
  cap : Nat
  page : Nat

/-- The other socket of the connection: `create_unix_sockpipes`, `/repo/src/safeposix/cage.rs` 236-243, with `socketpair_syscall`,
`/repo/src/safeposix/syscalls/net_calls.rs` 5178-5200: what one sends the other receives. -/
def peer (k : Nat) : Nat := if k % 2 = 0 then k + 1 else k - 1

/-- A call; `nb` is the flag `O_NONBLOCK` of the descriptor. -/
inductive Call
  | recv (n : Nat) (nb : Bool)
  | send (bs : List Nat) (nb : Bool)
  /-- select or poll for reading, one look -/
  | look
  | close
  deriving DecidableEq, Repr

/-- How a call ends. -/
inductive Res
  | data (bs : List Nat)
  | sent (n : Nat)
  | eof
  | again
  | pipe
  | badf
  | ready (b : Bool)
  | closed
  deriving DecidableEq, Repr

/-- Where a thread is: in no call; about to take the entry of the descriptor; with that, about to take the handle of the socket; with both,
`d` bytes written so far. -/
inductive Phase
  | idle
  | slot (fd : Nat) (c : Call)
  | lock (fd : Nat) (c : Call)
  | run (fd : Nat) (c : Call) (d : Nat)
  deriving DecidableEq, Repr

/-- A call of thread `t` has returned, having written `d` bytes. -/
structure Ev where
  t : Nat
  fd : Nat
  c : Call
  r : Res
  d : Nat
  deriving DecidableEq, Repr

/-- The state; `buf k` is what waits to be received at socket `k`. -/
structure St where
  thr : Nat → Phase
  slot : Nat → Option Nat
  lock : Nat → Option Nat
  «open» : Nat → Bool
  buf : Nat → List Nat
  log : List Ev

/-- Function update. -/
def put {α : Type} (f : Nat → α) (i : Nat) (a : α) : Nat → α := fun j => if j = i then a else f j

/-- Connections just made, nobody in a call. -/
def init (cfg : Cfg) : St where
  thr _ := .idle
  slot _ := none
  lock _ := none
  «open» fd := cfg.fds.contains fd
  buf _ := []
  log := []

/-- No descriptor of socket `k` is left: `get_write_ref` or `get_read_ref` is 0, `/repo/src/interface/pipe.rs` 100-109. -/
def gone (cfg : Cfg) (s : St) (k : Nat) : Bool := cfg.fds.all fun fd => cfg.of fd != k || !s.open fd

/-- The call returns: both guards are dropped. -/
def ret (cfg : Cfg) (s : St) (t fd : Nat) (c : Call) (r : Res) (d : Nat) : St :=
  { s with
    thr := put s.thr t .idle
    slot := put s.slot fd none
    lock := put s.lock (cfg.of fd) none
    log := s.log ++ [⟨t, fd, c, r, d⟩] }

/-- `recv_common_inner_tcp`, `/repo/src/safeposix/syscalls/net_calls.rs` 1886-2116, the loop 1972-2019, with `read_from_pipe`,
`/repo/src/interface/pipe.rs` 403-463, whose own loop gives up after a while (435). -/
def recvGo (cfg : Cfg) (s : St) (t fd n : Nat) (nb : Bool) : St :=
  let k := cfg.of fd
  if n = 0 then ret cfg s t fd (.recv n nb) (.data []) 0
  else if s.buf k ≠ [] then
    ret cfg { s with buf := put s.buf k ((s.buf k).drop n) } t fd (.recv n nb) (.data ((s.buf k).take n)) 0
  else if gone cfg s (peer k) then ret cfg s t fd (.recv n nb) .eof 0
  else if nb then ret cfg s t fd (.recv n nb) .again 0
  else { s with thr := put s.thr t (.lock fd (.recv n nb)), lock := put s.lock k none }

/-- `send_syscall`, `/repo/src/safeposix/syscalls/net_calls.rs` 1593-1684, with a pass of the loop of `write_to_pipe`, `/repo/src/interface/pipe.rs`
211-296; `none` if it goes round for want of room. -/
def sendGo (cfg : Cfg) (s : St) (t fd : Nat) (bs : List Nat) (nb : Bool) (d : Nat) : Option St :=
  let p := peer (cfg.of fd)
  let room := cfg.cap - (s.buf p).length
  if bs.length ≤ d then some (ret cfg s t fd (.send bs nb) (.sent d) d)
  else if gone cfg s p then some (ret cfg s t fd (.send bs nb) .pipe d)
  else if room < cfg.page then
    if nb then some (ret cfg s t fd (.send bs nb) (if 0 < d then .sent d else .again) d)
    else none
  else
    some { s with
      thr := put s.thr t (.run fd (.send bs nb) (min bs.length (d + room)))
      buf := put s.buf p (s.buf p ++ (bs.drop d).take room) }

/-- What a thread does that has both locks: see `recvGo` and `sendGo`; a look of select or poll, `/repo/src/safeposix/syscalls/net_calls.rs` 3473-3560,
with `check_select_read`, `/repo/src/interface/pipe.rs` 155-160; `_close_helper`, `/repo/src/safeposix/syscalls/fs_calls.rs` 3602-3665, 3820-3850. -/
def runGo (cfg : Cfg) (s : St) (t fd : Nat) (c : Call) (d : Nat) : Option St :=
  match c with
  | .recv n nb => some (recvGo cfg s t fd n nb)
  | .send bs nb => sendGo cfg s t fd bs nb d
  | .look => some (ret cfg s t fd .look (.ready (s.buf (cfg.of fd) ≠ [] || gone cfg s (peer (cfg.of fd)))) 0)
  | .close => some (ret cfg { s with «open» := put s.open fd false } t fd .close .closed 0)

/-- The next thing a thread does: `/repo/src/safeposix/syscalls/net_calls.rs` 1597-1606 (send), 2218-2226, 1836-1837 (recv). -/
def go (cfg : Cfg) (s : St) (t : Nat) : Option St :=
  match s.thr t with
  | .idle => none
  | .slot fd c =>
    if s.slot fd ≠ none then none
    else if s.open fd then some { s with thr := put s.thr t (.lock fd c), slot := put s.slot fd (some t) }
    else some { s with thr := put s.thr t .idle, log := s.log ++ [⟨t, fd, c, .badf, 0⟩] }
  | .lock fd c =>
    if s.lock (cfg.of fd) ≠ none then none
    else some { s with thr := put s.thr t (.run fd c 0), lock := put s.lock (cfg.of fd) (some t) }
  | .run fd c d => runGo cfg s t fd c d

/-- What can happen: a thread makes a call, or goes on with it. -/
inductive Act
  | call (t fd : Nat) (c : Call)
  | go (t : Nat)
  deriving DecidableEq, Repr

/-- One step; `none` if it cannot take place now. -/
def step (cfg : Cfg) (s : St) : Act → Option St
  | .call t fd c => if s.thr t = .idle then some { s with thr := put s.thr t (.slot fd c) } else none
  | .go t => go cfg s t

/-- A run; what cannot take place is passed over. -/
def runFrom (cfg : Cfg) (s : St) : List Act → St
  | [] => s
  | a :: l => runFrom cfg ((step cfg s a).getD s) l

end Verif.Duplex
