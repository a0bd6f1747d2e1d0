import Verif.Path

/-!
# Connecting and accepting by several threads

`UnixSock` runs `connect` and `accept` of unix stream sockets one at a time.  Here the two meet as in the code: `connect`
(`/repo/src/safeposix/syscalls/net_calls.rs` 1035-1104) puts an entry into `domsock_accept_table`, which has one place
per path, and then sleeps on its own condition variable; `accept` (3038-3086) looks at the place of its path again and
again, wakes the sleeper, and removes what is then in the place.  Calls have numbers (`c` for connects, `a` for accepts);
the number of a connect stands for the two pipes it makes, so an accept that took `c` is the other end of `c`.

Simplifications: the steps between two accesses to shared data are joined; the paths are normalised already; sockets are
listening and not yet connected (C49), so the errors that depend on it are left out; only the lock on the entry of the
same path in `domsock_paths` is modelled, not that on the others of its shard.
-/

namespace Verif.Rendezvous

open Verif.Path

/-- Where a `connect` is. -/
inductive CPhase
  /-- its entry is in the table, line 1092; it does not sleep yet -/
  | inserted
  /-- asleep in `ConnCondVar::wait`, line 1101 and `/repo/src/safeposix/net.rs` 167-171; the count is 1 -/
  | asleep
  /-- it has returned 0 -/
  | returned
  deriving DecidableEq, Repr

/-- A `connect` call, `/repo/src/safeposix/syscalls/net_calls.rs` 1035-1104. -/
structure Conn where
  path : Str
  /-- the descriptor has not `O_NONBLOCK`: there is a condition variable -/
  blk : Bool
  ph : CPhase
  deriving DecidableEq, Repr

/-- Where an `accept` is. -/
inductive APhase
  /-- at the head of the loop, line 3046 -/
  | looking
  /-- it has woken the sleeper and copied the pipes, line 3069, but not yet removed the entry -/
  | took (c : Nat)
  /-- it returns a descriptor -/
  | done (c : Nat)
  /-- it returned EAGAIN -/
  | again
  deriving DecidableEq, Repr

/-- An `accept` call, `/repo/src/safeposix/syscalls/net_calls.rs` 2993-3131. -/
structure Acc where
  path : Str
  nb : Bool
  ph : APhase
  deriving DecidableEq, Repr

/-- `names`: `domsock_paths`; `table`: `domsock_accept_table`, the connect call whose entry is in the place. -/
structure St where
  names : Str → Bool
  table : Str → Option Nat
  conn : Nat → Option Conn
  acc : Nat → Option Acc

/-- Nothing bound, no call made. -/
def init : St := { names := fun _ => false, table := fun _ => none, conn := fun _ => none, acc := fun _ => none }

/-- What happens next. -/
inductive Ev
  /-- `bind` adds the name, line 551 -/
  | bind (p : Str)
  /-- `unlink`, `rename` or the last `close` removes the name, `/repo/src/safeposix/syscalls/fs_calls.rs` 1065, 3662, 4969 -/
  | forget (p : Str)
  /-- `connect` number `c` to the path, up to the insertion -/
  | connect (c : Nat) (p : Str) (blk : Bool)
  /-- it goes to sleep -/
  | sleep (c : Nat)
  /-- `accept` number `a` on a socket listening at the path, up to the loop -/
  | accept (a : Nat) (p : Str) (nb : Bool)
  /-- it looks once -/
  | look (a : Nat)
  /-- it removes the entry and returns -/
  | remove (a : Nat)
  deriving DecidableEq, Repr

/-- A connect that has not returned keeps `path_ref`, line 1054, and so a lock on the name, to its end. -/
def Holds (s : St) (p : Str) : Prop := ∃ c x, s.conn c = some x ∧ x.path = p ∧ x.ph ≠ .returned

/-- A connect after the broadcast, `/repo/src/safeposix/net.rs` 173-181: a sleeper returns. -/
def woken (x : Conn) : Conn := { x with ph := .returned }

/-- `Step s e s'`: the event can happen in `s` and leads to `s'`. -/
inductive Step : St → Ev → St → Prop
  | bind {s p} : Step s (.bind p) { s with names := updK s.names p true }
  /-- the removal waits for the lock -/
  | forget {s p} : ¬ Holds s p → Step s (.forget p) { s with names := updK s.names p false }
  /-- lines 1054-1059: ENOENT -/
  | refused {s c p blk} : s.conn c = none → s.names p = false → Step s (.connect c p blk) s
  /-- lines 1061-1096 and, without a condition variable, 1103 -/
  | connect {s c p blk} : s.conn c = none → s.names p = true →
      Step s (.connect c p blk)
        { s with table := updK s.table p (some c)
                 conn := updK s.conn c (some ⟨p, blk, if blk then .inserted else .returned⟩) }
  /-- line 1101 -/
  | sleep {s c x} : s.conn c = some x → x.ph = .inserted →
      Step s (.sleep c) { s with conn := updK s.conn c (some { x with ph := .asleep }) }
  | accept {s a p nb} : s.acc a = none →
      Step s (.accept a p nb) { s with acc := updK s.acc a (some ⟨p, nb, .looking⟩) }
  /-- lines 3074-3083: nothing there, blocking -/
  | lookNone {s a y} : s.acc a = some y → y.ph = .looking → s.table y.path = none → y.nb = false → Step s (.look a) s
  /-- lines 3076-3082 -/
  | lookAgain {s a y} : s.acc a = some y → y.ph = .looking → s.table y.path = none → y.nb = true →
      Step s (.look a) { s with acc := updK s.acc a (some { y with ph := .again }) }
  /-- lines 3060-3063: the count is still 0 -/
  | lookSpin {s a y c x} : s.acc a = some y → y.ph = .looking → s.table y.path = some c → s.conn c = some x →
      x.blk = true → x.ph = .inserted → Step s (.look a) s
  /-- lines 3057-3071 -/
  | lookTake {s a y c x} : s.acc a = some y → y.ph = .looking → s.table y.path = some c → s.conn c = some x →
      ¬ (x.blk = true ∧ x.ph = .inserted) →
      Step s (.look a) { s with conn := updK s.conn c (some (woken x)), acc := updK s.acc a (some { y with ph := .took c }) }
  /-- line 3072 -/
  | remove {s a y c} : s.acc a = some y → y.ph = .took c →
      Step s (.remove a) { s with table := updK s.table y.path none, acc := updK s.acc a (some { y with ph := .done c }) }

/-- Any number of steps. -/
inductive Run : St → St → Prop
  | refl {s} : Run s s
  | tail {s s1 e s2} : Run s s1 → Step s1 e s2 → Run s s2

end Verif.Rendezvous
