import Verif.Pipe

/-!
# Vectored writes and readiness checks of a pipe used by several threads

`Pipe.Sys` runs `write_to_pipe` and `read_from_pipe` step by step.  Here are added `write_vectored_to_pipe`
(`/repo/src/interface/pipe.rs` 329-373), which calls `write_to_pipe` once for each buffer and so gives the lock of the
write end back between two buffers, and the readiness checks (155-178), which wait for the lock of their end.
-/

namespace Verif.PipeConc
open Verif.Pipe (Sys)

/-- A `write_vectored_to_pipe` call, `/repo/src/interface/pipe.rs` 329-373. -/
structure Vec where
  /-- what the caller gave -/
  iovs : List (List UInt8)
  nb : Bool
  /-- the buffers whose turn has not come, and the one being written if `inside` -/
  rest : List (List UInt8)
  /-- in `write_to_pipe` with the first buffer of `rest`, line 349 -/
  inside : Bool
  /-- `total_bytes_written` -/
  tot : Nat
  /-- not in the code: what each buffer put into the pipe, in order -/
  put : List (List UInt8)
  deriving DecidableEq, Repr

/-- The pipe with the threads inside `write_to_pipe` and `read_from_pipe`, and the vectored writes begun. -/
structure St where
  sys : Sys
  vec : Nat → Option Vec

/-- A new pipe and no calls. -/
def St.init (cap : Nat) : St := { sys := Sys.init cap, vec := fun _ => none }

/-- What happens next. -/
inductive Act
  /-- anything but vectored writes, and the steps inside `write_to_pipe` -/
  | base (a : Pipe.Act)
  /-- thread `tid` calls `write_vectored_to_pipe` -/
  | beginV (tid : Nat) (iovs : List (List UInt8)) (nb : Bool)
  /-- it goes on to its next buffer, or returns -/
  | nextV (tid : Nat)
  deriving DecidableEq, Repr

/-- What is seen: a `write_to_pipe` or `read_from_pipe` ends (`inVec`: called by a vectored write), or a vectored write ends. -/
inductive Ev
  | io (inVec : Bool) (e : Pipe.Ev)
  | vecDone (tid : Nat) (iovs : List (List UInt8)) (nb : Bool) (put : List (List UInt8)) (ret : Ret)
  deriving DecidableEq, Repr

/-- Lines 352-369, after the first buffer of `rest` has put `bytes` into the pipe and `write_to_pipe` has answered `r`: what the call
answers, if it ends here, and its record. -/
def Vec.after (v : Vec) (bytes : List UInt8) (r : Ret) : Vec × Option Ret :=
  let v1 := { v with rest := v.rest.drop 1, inside := false, put := v.put ++ [bytes] }
  match r with
  | .ok k => ({ v1 with tot := v.tot + k.toNat }, none)
  | .err .EPIPE => (v1, some (.err .EPIPE))
  | .err .EAGAIN => (v1, some (if v.tot = 0 then .err .EAGAIN else .ok v.tot))
  | _ => (v1, none)

/-- The end of a `write_to_pipe` of thread `tid` whose vectored write is `v`. -/
def pieceDone (s : St) (sys : Sys) (tid : Nat) (v : Vec) (e : Pipe.Ev) (bytes : List UInt8) (r : Ret) : St × List Ev :=
  match v.after bytes r with
  | (v1, none) => ({ sys := sys, vec := updK s.vec tid (some v1) }, [.io true e])
  | (v1, some r1) => ({ sys := sys, vec := updK s.vec tid none }, [.io true e, .vecDone tid v.iovs v.nb v1.put r1])

/-- A step of the thread in `write_to_pipe`. -/
def stepWrite (s : St) : St × List Ev :=
  match Pipe.step s.sys .writeStep with
  | (sys, some (.wrote tid data nb pushed ret)) =>
    match s.vec tid with
    | some v => pieceDone s sys tid v (.wrote tid data nb pushed ret) (data.take pushed) ret
    | none => ({ s with sys := sys }, [.io false (.wrote tid data nb pushed ret)])
  | (sys, e) => ({ s with sys := sys }, e.toList.map (Ev.io false))

/-- Steps that are those of `Pipe`. -/
def stepBase (s : St) (a : Pipe.Act) : St × List Ev :=
  let r := Pipe.step s.sys a
  ({ s with sys := r.1 }, r.2.toList.map (Ev.io false))

/-- One step; a step that is not possible changes nothing. -/
def step (s : St) : Act → St × List Ev
  | .base .writeStep => stepWrite s
  | .base (.beginWrite tid data nb) => if s.vec tid = none then stepBase s (.beginWrite tid data nb) else (s, [])
  | .base (.beginRead tid n nb) => if s.vec tid = none then stepBase s (.beginRead tid n nb) else (s, [])
  | .base a => stepBase s a
  | .beginV tid iovs nb =>
    if s.vec tid = none ∧ (∀ t, s.sys.wr = some t → t.tid ≠ tid) then
      ({ s with vec := updK s.vec tid (some ⟨iovs, nb, iovs, false, 0, []⟩) }, [])
    else (s, [])
  | .nextV tid =>
    match s.vec tid with
    | none => (s, [])
    | some v =>
      if v.inside then (s, [])
      else match v.rest with
        | [] => ({ s with vec := updK s.vec tid none }, [.vecDone tid v.iovs v.nb v.put (.ok v.tot)])
        | [] :: _ => pieceDone s s.sys tid v (.wrote tid [] v.nb 0 (.ok 0)) [] (.ok 0)
        | (b :: bs) :: _ =>
          match s.sys.wr with
          | some _ => (s, [])
          | none => ({ sys := (Pipe.step s.sys (.beginWrite tid (b :: bs) v.nb)).1
                       vec := updK s.vec tid (some { v with inside := true }) }, [])

/-- Any number of steps, with what was seen. -/
def run (s : St) : List Act → St × List Ev
  | [] => (s, [])
  | a :: as =>
    let r := step s a
    let r' := run r.1 as
    (r'.1, r.2 ++ r'.2)

/-- `check_select_write`, `/repo/src/interface/pipe.rs` 171-178; `none`: it waits for the lock of the write end. -/
def selectWrite (s : Sys) : Option Bool := if s.wr = none then some s.p.selectWrite else none

/-- `check_select_read`, `/repo/src/interface/pipe.rs` 155-160; `none`: it waits for the lock of the read end. -/
def selectRead (s : Sys) : Option Bool := if s.rd = none then some s.p.selectRead else none

end Verif.PipeConc
