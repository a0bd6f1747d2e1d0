import Verif.FdConc

/-!
# Forking while other threads use the descriptor table

`fork` copies the descriptor table of the calling cage into the table of the child slot by slot
(src/safeposix/syscalls/sys_calls.rs 200-284).  It takes the read lock of one slot at a time, adds
one to the reference count of the object it finds there (213-277), stores a copy in the child's
table (280-282) and drops the lock.  Other threads of the cage go on with their calls meanwhile.
This file adds such forks, any number at once, to the concurrent calls of `Verif.FdConc`.

Simplifications: reading one slot, counting and copying it is one step (nothing in it waits for
another descriptor); the parts of `fork` before and after the descriptor loop are not modelled
here.  There is one counter per object in the code; the model keeps the part changed by the calls
of the parent (`base.refs`) and the part added by forks (`extra`) separately, and `refs` is their
sum.  Children do not run.
-/

namespace Verif.FdFork

open FdConc (Tid Fd Obj set)

/-- The cage, the forks under way and the tables of the children. -/
structure St where
  base : FdConc.St
  /-- the fork a thread is in: number of the child and next slot to copy -/
  forks : Tid → Option (Nat × Nat)
  /-- children begun so far -/
  n : Nat
  /-- the table of each child -/
  kid : Nat → Fd → Option Obj
  /-- children put into the cage table (sys_calls.rs 407) -/
  born : Nat → Bool
  /-- what forks have added to the counts -/
  extra : Obj → Int
  /-- threads that died of a panic inside `fork` -/
  dead : Tid → Bool

/-- The counter of an object. -/
def St.refs (s : St) (o : Obj) : Int := s.base.refs o + s.extra o

/-- What the scheduler can do. -/
inductive Act
  /-- a step of another call, or its start -/
  | call (a : FdConc.Act)
  /-- a thread calls `fork` -/
  | fork (t : Tid)
  /-- the next step of a `fork` -/
  | copy (t : Tid)
  deriving DecidableEq, Repr

/-- The loop body of `fork` for slot `k` of child `c` (sys_calls.rs 205-283), and the end of the
call.  `nameless o`: the object `o` has no name left, so that it is deleted from the inode table
when its count reaches zero, and looking it up fails (`unwrap`, 221 and 269). -/
def copyStep (N : Nat) (nameless : Obj → Bool) (s : St) (t : Tid) (c k : Nat) : Option St :=
  if k < N then
    if s.base.wr k = none then
      match s.base.val k with
      | none => some { s with forks := set s.forks t (some (c, k + 1)) }
      | some o =>
        if nameless o && s.refs o ≤ 0 then
          some { s with forks := set s.forks t none, dead := set s.dead t true }
        else
          some { s with
            forks := set s.forks t (some (c, k + 1))
            kid := set s.kid c (set (s.kid c) k (some o))
            extra := set s.extra o (s.extra o + 1) }
    else none                                        -- waits for the slot (208)
  else some { s with forks := set s.forks t none, born := set s.born c true }

/-- Can the thread start a call? -/
def St.idle (s : St) (t : Tid) : Bool :=
  s.base.pc t = .idle && s.forks t = none && !s.dead t

/-- One action; an action that is not possible leaves the state alone. -/
def act (N : Nat) (nameless : Obj → Bool) (s : St) : Act → St
  | .call (.enter t op) =>
    if s.idle t then { s with base := FdConc.act N s.base (.enter t op) } else s
  | .call (.run t) => { s with base := FdConc.act N s.base (.run t) }
  | .fork t =>
    if s.idle t then
      { s with forks := set s.forks t (some (s.n, 0)), n := s.n + 1
               kid := set s.kid s.n (fun _ => none) }
    else s
  | .copy t =>
    match s.forks t with
    | none => s
    | some (c, k) => (copyStep N nameless s t c k).getD s

/-- A whole schedule. -/
def exec (N : Nat) (nameless : Obj → Bool) (s : St) (as : List Act) : St :=
  as.foldl (act N nameless) s

/-- A cage at rest, without children. -/
def atRest (N : Nat) (val : Fd → Option Obj) : St :=
  { base := FdConc.atRest N val, forks := fun _ => none, n := 0, kid := fun _ _ => none
    born := fun _ => false, extra := fun _ => 0, dead := fun _ => false }

end Verif.FdFork
