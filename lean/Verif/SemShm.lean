import Verif.Shm
import Verif.Sem

/-!
# Semaphores in shared memory

Model of the semaphore calls of `/repo/src/safeposix/syscalls/fs_calls.rs` 6407-6818 together with the shared memory calls
5602-5958, with the branches for process-shared semaphores (6431-6460, 6607-6638) and the semaphores that `shmat` copies
(5796-5822) and `shmdt` removes (5883-5887), and what `fork`, `exec` and `exit` do with semaphores
(`/repo/src/safeposix/syscalls/sys_calls.rs` 333-343, 378, 442, 519, 563-577).

Addresses, handles and offsets are 32 bit numbers (`u32`).  `chk` tells whether the program is compiled with overflow checks
(a debug build: an overflow aborts) or without (a release build: it wraps).

Simplifications: those of `Shm` and `Sem` (one call at a time); the set of offsets is kept in the order of insertion; cages
that are recorded as attached exist (`Shm.Inv`); after an abort the state does not matter.
-/

namespace Verif.SemShm
open Verif.Shm (State Seg)

/-- The number of addresses: `u32`. -/
def w32 : Nat := 4294967296

/-- `a + b` in `u32`; `none` is an abort. -/
def add32 (chk : Bool) (a b : Nat) : Option Nat :=
  if a + b < w32 then some (a + b) else if chk then none else some ((a + b) % w32)

/-- `a - b` in `u32`; `none` is an abort. -/
def sub32 (chk : Bool) (a b : Nat) : Option Nat :=
  if b ≤ a then some (a - b) else if chk then none else some ((a + w32 - b) % w32)

/-- The shared memory state, and the semaphores. -/
structure St where
  /-- `SHM_METADATA` and the `rev_shm` of the cages -/
  sh : State
  /-- `semaphor_offsets` of a segment, `/repo/src/safeposix/shm.rs` 21 -/
  offs : Nat → List Nat
  /-- `sem_table` of each cage: `/repo/src/safeposix/cage.rs` 119; semaphores are numbered -/
  tab : Nat → Nat → Option Nat
  /-- the value of a semaphore -/
  vals : Nat → Nat
  /-- its `is_shared`, `/repo/src/interface/misc.rs` 621-635 -/
  shared : Nat → Bool
  next : Nat

/-- No segment and no semaphore. -/
def init : St :=
  { sh := Shm.init, offs := fun _ => [], tab := fun _ _ => none, vals := fun _ => 0, shared := fun _ => false, next := 0 }

/-- Calls. -/
inductive Op
  /-- a shared memory call, or `fork`, `exec`, `exit`; `pick` is, for `shmat`, the first of the attached cages in the order of
  the hash table -/
  | shm (op : Shm.Op) (pick : Option Nat)
  | init (h : Nat) (pshared : Bool) (value : Nat)
  | wait (h : Nat)
  | trywait (h : Nat)
  /-- `expired`: the timeout passed while the value was zero -/
  | timedwait (h : Nat) (expired : Bool)
  | post (h : Nat)
  | getvalue (h : Nat)
  | destroy (h : Nat)
  deriving DecidableEq, Repr

/-- `rev_shm_find_addrs_by_shmid`, `/repo/src/safeposix/syscalls/fs_calls.rs` 5611-5620. -/
def addrsOf (rv : List (Nat × Nat)) (id : Nat) : List Nat := (rv.filter (fun u => u.2 == id)).map (fun u => u.1)

/-- `search_for_addr_in_region`, `/repo/src/safeposix/syscalls/fs_calls.rs` 5622-5637; the outer `none` is an abort. -/
def search (chk : Bool) (segs : Nat → Option Seg) (h : Nat) : List (Nat × Nat) → Option (Option (Nat × Nat))
  | [] => some none
  | u :: us =>
    match segs u.2 with
    | none => search chk segs h us
    | some g =>
      match add32 chk u.1 (g.size % w32) with
      | none => none
      | some e => if u.1 ≤ h ∧ h < e then some (some u) else search chk segs h us

/-- The places of the loops at `/repo/src/safeposix/syscalls/fs_calls.rs` 6452-6454 and 6629-6632: `addr + offset`. -/
def places (chk : Bool) (off : Nat) : List Nat → Option (List Nat)
  | [] => some []
  | a :: as =>
    match add32 chk a off, places chk off as with
    | some x, some xs => some (x :: xs)
    | _, _ => none

/-- What `v` is put at these handles in the table of every attached cage, 6445-6455 and 6622-6634. -/
def putAll (tab : Nat → Nat → Option Nat) (g : Seg) (xs : List Nat) (v : Option Nat) : Nat → Nat → Option Nat :=
  fun p k => if g.att p ≠ none ∧ k ∈ xs then v else tab p k

/-- `RustHashSet::insert`. -/
def addOff (l : List Nat) (o : Nat) : List Nat := if o ∈ l then l else l ++ [o]

/-- `sem_init_syscall`, `/repo/src/safeposix/syscalls/fs_calls.rs` 6407-6465. -/
def semInit (chk : Bool) (s : St) (c : Nat) (rv : List (Nat × Nat)) (h : Nat) (ps : Bool) (value : Nat) : St × Ret :=
  if value > Sem.semValueMax then (s, .err .EINVAL)
  else
    match s.tab c h with
    | some _ => (s, .err .EBADF)
    | none =>
      -- 6424-6427
      let s1 : St := { s with tab := upd s.tab c (upd (s.tab c) h (some s.next)), vals := upd s.vals s.next value
                              shared := upd s.shared s.next ps, next := s.next + 1 }
      if ps then
        match search chk s.sh.segs h rv with
        | none => (s1, .panic)
        | some none => (s1, .ok 0)
        | some (some (a, id)) =>
          -- 6438: the offset is the start of the segment minus the handle
          match sub32 chk a h with
          | none => (s1, .panic)
          | some off =>
            match s.sh.segs id with
            | none => (s1, .ok 0)
            | some g =>
              -- 6445-6457: the caller's addresses, in every attached cage's table
              match places chk off (addrsOf rv id) with
              | none => (s1, .panic)
              | some xs => ({ s1 with tab := putAll s1.tab g xs (some s.next)
                                      offs := upd s.offs id (addOff (s.offs id) off) }, .ok 0)
      else (s1, .ok 0)

/-- `sem_destroy_syscall`, `/repo/src/safeposix/syscalls/fs_calls.rs` 6600-6644. -/
def semDestroy (chk : Bool) (s : St) (c : Nat) (rv : List (Nat × Nat)) (h : Nat) : St × Ret :=
  match s.tab c h with
  | none => (s, .err .EINVAL)
  | some o =>
    let s1 : St := { s with tab := upd s.tab c (upd (s.tab c) h none) }
    if s.shared o then
      match search chk s.sh.segs h rv with
      | none => (s1, .panic)
      | some none => (s1, .ok 0)
      | some (some (a, id)) =>
        match sub32 chk a h with
        | none => (s1, .panic)
        | some off =>
          match s.sh.segs id with
          | none => (s1, .ok 0)
          | some g =>
            match places chk off (addrsOf rv id) with
            | none => (s1, .panic)
            -- the offset stays in `semaphor_offsets`
            | some xs => ({ s1 with tab := putAll s1.tab g xs none }, .ok 0)
    else (s1, .ok 0)

/-- The loop of `shmat_syscall`, `/repo/src/safeposix/syscalls/fs_calls.rs` 5817-5820; `none` is an abort: the `unwrap`, or an
overflow. -/
def copySems (chk : Bool) (c p a0 addr : Nat) : List Nat → (Nat → Nat → Option Nat) → Option (Nat → Nat → Option Nat)
  | [], tab => some tab
  | o :: os, tab =>
    match add32 chk a0 o, add32 chk addr o with
    | some x, some y =>
      match tab p x with
      | none => none
      | some v => copySems chk c p a0 addr os (upd tab c (upd (tab c) y (some v)))
    | _, _ => none

/-- The semaphores that a process gets with a segment: `/repo/src/safeposix/syscalls/fs_calls.rs` 5796-5822; `rv` is the table
of attachments of the caller with the new one.  `none` is an abort. -/
def attachSems (chk : Bool) (s : St) (c : Nat) (rv : List (Nat × Nat)) (id addr : Nat) (pick : Option Nat) :
    Option (Nat → Nat → Option Nat) :=
  if s.offs id = [] then some s.tab
  else
    match pick with
    | none => some s.tab
    | some p =>
      match (if p = c then some rv else s.sh.rev p) with
      | none => none
      | some rvp =>
        match addrsOf rvp id with
        -- `addrs[0]`
        | [] => none
        | a0 :: _ => copySems chk c p a0 addr (s.offs id) s.tab

/-- The loop of `shmdt_syscall`, `/repo/src/safeposix/syscalls/fs_calls.rs` 5885-5887; `none` is an overflow that aborts. -/
def dropSems (chk : Bool) (addr : Nat) : List Nat → (Nat → Option Nat) → Option (Nat → Option Nat)
  | [], t => some t
  | o :: os, t =>
    match add32 chk addr o with
    | none => none
    | some x => dropSems chk addr os (upd t x none)

/-- The answer of a shared memory call as it is; `Ret` for the semaphore calls. -/
abbrev Out := Shm.Out

/-- The tables of semaphores after a shared memory call that succeeds; `none` is an abort in the part about semaphores. -/
def tabAfter (chk : Bool) (s : St) (c : Nat) (rv : List (Nat × Nat)) (pick : Option Nat) : Shm.Op → Option (Nat → Nat → Option Nat)
  | .at id addr _ => if s.sh.segs id = none then some s.tab else attachSems chk s c (rv ++ [(addr, id)]) id addr pick
  | .dt addr =>
    match Shm.findAddr addr rv with
    | none => some s.tab
    | some (_, id) => (dropSems chk addr (s.offs id) (s.tab c)).map (fun t => upd s.tab c t)
  -- `/repo/src/safeposix/syscalls/sys_calls.rs` 333-343, 378: the child's table has the same objects
  | .fork ch => some (upd s.tab ch (s.tab c))
  -- 442, 519: an empty table
  | .exec ch => some (upd (upd s.tab c fun _ => none) ch fun _ => none)
  -- 573: the cage is removed
  | .exit => some (upd s.tab c fun _ => none)
  | _ => some s.tab

/-- A shared memory call, `fork`, `exec` or `exit`. -/
def shmCall (chk : Bool) (s : St) (c : Nat) (rv : List (Nat × Nat)) (op : Shm.Op) (pick : Option Nat) : St × Out :=
  match tabAfter chk s c rv pick op with
  | none => (s, .r .panic)
  | some tab =>
    match Shm.step s.sh c op with
    | (_, .r .panic) => (s, .r .panic)
    | (sh, out) => ({ s with sh := sh, tab := tab }, out)

/-- `sem_wait_syscall` 6495-6518, `sem_trywait_syscall` 6716-6744, `sem_timedwait_syscall` 6780-6818 of
`/repo/src/safeposix/syscalls/fs_calls.rs`; `fail` is the answer when there is no unit. -/
def takeCall (s : St) (c h : Nat) (fail : Ret) : St × Out :=
  match s.tab c h with
  | none => (s, .r (.err .EINVAL))
  | some o =>
    match Sem.take (s.vals o) with
    | some v => ({ s with vals := upd s.vals o v }, .r (.ok 0))
    | none => (s, .r fail)

/-- One call by cage `c`. -/
def step (chk : Bool) (s : St) (c : Nat) (op : Op) : St × Out :=
  match s.sh.rev c with
  | none => (s, .r .panic)
  | some rv =>
    match op with
    | .shm op pick => shmCall chk s c rv op pick
    | .init h ps v => let r := semInit chk s c rv h ps v; (r.1, .r r.2)
    | .wait h => takeCall s c h .blocked
    | .trywait h => takeCall s c h (.err .EAGAIN)
    | .timedwait h expired => takeCall s c h (if expired then .err .ETIMEDOUT else .blocked)
    -- `sem_post_syscall`, 6544-6573
    | .post h =>
      match s.tab c h with
      | none => (s, .r (.err .EINVAL))
      | some o =>
        match Sem.give (s.vals o) with
        | some v => ({ s with vals := upd s.vals o v }, .r (.ok 0))
        | none => (s, .r (.err .EOVERFLOW))
    -- `sem_getvalue_syscall`, 6673-6691
    | .getvalue h =>
      match s.tab c h with
      | none => (s, .r (.err .EINVAL))
      | some o => (s, .r (.ok (s.vals o)))
    | .destroy h => let r := semDestroy chk s c rv h; (r.1, .r r.2)

/-- The answers of a history of calls, each with the caller. -/
def answers (chk : Bool) (s : St) : List (Nat × Op) → List Out
  | [] => []
  | x :: l => (step chk s x.1 x.2).2 :: answers chk (step chk s x.1 x.2).1 l

/-- The state after it. -/
def run (chk : Bool) (s : St) : List (Nat × Op) → St
  | [] => s
  | x :: l => run chk (step chk s x.1 x.2).1 l

end Verif.SemShm
