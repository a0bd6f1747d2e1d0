import Verif.Base

/-!
# Model of signals

`/repo/src/safeposix/syscalls/sys_calls.rs` 739-831 (`sigaction`, `kill`, `sigprocmask`),
`/repo/src/interface/misc.rs` 347-374 (signal sets, `lind_kill_from_id`),
`/repo/src/safeposix/cage.rs` 179-185 (`send_pending_signals`),
`/repo/src/safeposix/dispatcher.rs` 192-208 (`rustposix_thread_init`), 1010-1034
(`lindgetsighandler`), and the parts of `fork_syscall` (310-329, 381-387), `exec_syscall`
(484-524) and `exit_syscall` (563-591) that concern signals.

Not modelled: the host's `pthread_kill` (a call of `lind_threadkill` becomes an entry of
`sent`), and the `RUSTPOSIX_TESTSUITE` mode, in which signals are switched off.
-/

namespace Verif.Signal

/-- `SigsetType`, a `u64`. -/
abbrev Sigset := BitVec 64

/-- `lind_sigaddset`, `/repo/src/interface/misc.rs` 355-357; `signum` in 1..64 (the shift
amount is out of range otherwise). -/
def sigaddset (set : Sigset) (signum : Nat) : Sigset := set ||| (1#64 <<< (signum - 1))

/-- `lind_sigdelset`, `/repo/src/interface/misc.rs` 359-361. -/
def sigdelset (set : Sigset) (signum : Nat) : Sigset := set &&& ~~~(1#64 <<< (signum - 1))

/-- `lind_sigismember`, `/repo/src/interface/misc.rs` 363-365. -/
def sigismember (set : Sigset) (signum : Nat) : Bool := (set &&& (1#64 <<< (signum - 1))) != 0#64

/-- `SigactionStruct`, `/repo/src/interface/types.rs` 155-159. -/
structure Action where
  handler : BitVec 32
  mask : Sigset
  flags : Int
  deriving DecidableEq, Repr

/-- `SigactionStruct::default()`. -/
def Action.default : Action := { handler := 0, mask := 0, flags := 0 }

/-- The signal fields of a cage, `/repo/src/safeposix/cage.rs` 118-122. -/
structure Cage where
  /-- `sigset`: mask per thread; key 0 holds an inherited mask no thread has claimed yet -/
  mask : Nat → Option Sigset
  /-- `signalhandler` -/
  handlers : Nat → Option Action
  /-- `main_threadid`, 0 if there is none -/
  main : Nat

/-- A cage as made by `lindrustinit`, `/repo/src/safeposix/dispatcher.rs` 1037-1093. -/
def Cage.empty : Cage := { mask := fun _ => none, handlers := fun _ => none, main := 0 }

structure State where
  cages : Nat → Option Cage
  /-- calls of `lind_threadkill` so far: (thread, signal) -/
  sent : List (Nat × Nat)

/-- `lindrustinit`: cages 0 and 1. -/
def State.init : State :=
  { cages := fun i => if i ≤ 1 then some Cage.empty else none, sent := [] }

/-- Replace a slot of the cage table. -/
def State.setCage (s : State) (i : Nat) (c : Option Cage) : State :=
  { s with cages := upd s.cages i c }

/-- Calls; `cage` and `tid` are the calling cage and thread. -/
inductive Op
  | threadInit (cage tid : Nat)
  | sigprocmask (cage tid : Nat) (how : Int) (set : Option Sigset)
  | sigaction (cage : Nat) (sig : Nat) (act : Option Action)
  | kill (target : Int) (sig : Nat)
  /-- `lindgetsighandler`: the runtime asks what to do with signal `sig` that reached `tid` -/
  | getHandler (cage tid sig : Nat)
  | fork (parent child : Nat)
  | exec (cage new : Nat)
  deriving DecidableEq, Repr

/-- Result of a call: return value, previous mask, previous action. -/
structure Out where
  ret : Ret
  oldset : Option Sigset := none
  oldact : Option Action := none
  deriving DecidableEq, Repr

/-- `MAXCAGEID`, `/repo/src/interface/misc.rs`. -/
def maxCageId : Nat := 1024

/-- `send_pending_signals`, `/repo/src/safeposix/cage.rs` 179-185: signals 1..63. -/
def pendingSignals (set : Sigset) : List Nat :=
  (List.range' 1 63).filter (sigismember set)

/-- `sigprocmask_syscall`, `/repo/src/safeposix/syscalls/sys_calls.rs` 788-831, on the mask of
the calling thread: new mask, signals sent to the calling thread, return value. -/
def procmask (curr : Sigset) (how : Int) (set : Option Sigset) : Sigset × List Nat × Ret :=
  match set with
  | none => (curr, [], .ok 0)
  | some set =>
    if how = 0 then (curr ||| set, [], .ok 0)
    else if how = 1 then (curr &&& ~~~set, pendingSignals (curr &&& set), .ok 0)
    else if how = 2 then (set, [], .ok 0)
    else (curr, [], .err .EINVAL)

/-- The calls.  `cagetable_getref` of a missing cage and `unwrap` of a missing mask panic. -/
def step (s : State) : Op → State × Out
  | .threadInit cage tid =>
    match s.cages cage with
    | none => (s, { ret := .panic })
    | some c =>
      let m := (c.mask 0).getD 0
      (s.setCage cage (some { c with mask := upd (upd c.mask 0 none) tid (some m), main := tid }),
        { ret := .ok 0 })
  | .sigprocmask cage tid how set =>
    match s.cages cage with
    | none => (s, { ret := .panic })
    | some c => match c.mask tid with
      | none => (s, { ret := .panic })
      | some m =>
        let r := procmask m how set
        ({ s.setCage cage (some { c with mask := upd c.mask tid (some r.1) }) with
            sent := s.sent ++ r.2.1.map (fun sg => (tid, sg)) }, { ret := r.2.2, oldset := some m })
  | .sigaction cage sig act =>
    match s.cages cage with
    | none => (s, { ret := .panic })
    | some c =>
      let old := (c.handlers sig).getD Action.default
      match act with
      | none => (s, { ret := .ok 0, oldact := some old })
      | some a =>
        if sig = 9 ∨ sig = 19 then (s, { ret := .err .EINVAL, oldact := some old })
        else (s.setCage cage (some { c with handlers := upd c.handlers sig (some a) }),
              { ret := .ok 0, oldact := some old })
  | .kill target sig =>
    if target < 0 ∨ target ≥ 1024 then (s, { ret := .err .EINVAL })
    else match s.cages target.toNat with
      | none => (s, { ret := .err .ESRCH })
      | some c => ({ s with sent := s.sent ++ [(c.main, sig)] }, { ret := .ok 0 })
  | .getHandler cage tid sig =>
    match s.cages cage with
    | none => (s, { ret := .panic })
    | some c => match c.mask tid with
      | none => (s, { ret := .panic })
      | some m =>
        if sigismember m sig = false then
          (s, { ret := .ok (match c.handlers sig with | some a => a.handler.toNat | none => 0) })
        else
          (s.setCage cage (some { c with mask := upd c.mask tid (some (sigaddset m sig)) }),
            { ret := .ok 1 })
  | .fork parent child =>
    match s.cages parent with
    | none => (s, { ret := .panic })
    | some c => match c.mask c.main with
      | none => (s, { ret := .panic })
      | some m =>
        if child ≥ maxCageId then (s, { ret := .panic })
        else (s.setCage child
                (some { mask := upd (fun _ => none) 0 (some m), handlers := c.handlers, main := 0 }),
              { ret := .ok 0 })
  | .exec cage new =>
    match s.cages cage with
    | none => (s, { ret := .panic })
    | some c => match c.mask c.main with
      | none => (s, { ret := .panic })
      | some m =>
        if new ≥ maxCageId then (s, { ret := .panic })
        else ((s.setCage cage none).setCage new
                (some { mask := upd (fun _ => none) 0 (some m), handlers := fun _ => none, main := 0 }),
              { ret := .ok 0 })

/-- Run a history; collect each call with its result. -/
def run (s : State) : List Op → State × List (Op × Out)
  | [] => (s, [])
  | op :: ops =>
    let r := run (step s op).1 ops
    (r.1, (op, (step s op).2) :: r.2)

end Verif.Signal
