import Verif.Base

/-!
# Shared memory calls by several threads

`Shm` runs one call at a time.  Here the calls run step by step, with the locks of the code: a lock on the entry of each
segment in `shmtable` and the mutex `rev_shm` of each cage.  `shmget`
(`/repo/src/safeposix/syscalls/fs_calls.rs` 5679-5748) gives the lock on the entry of the key back before it puts the
segment into the table; `shmat` (5777-5829) takes the segment and then `rev_shm`; `shmdt` (5862-5923) takes `rev_shm` and
then the segment, and removes the key after the segment; `shmctl` (5927-5958) gives the segment back before it removes
it, and removes the key last.

Simplifications: identifiers, counts and addresses do not overflow; sizes, modes, times and semaphores are left out, and so are fork, exec
and exit; the host maps and unmaps; the vectors `rev_shm` of all cages are one list, and which of two attachments
at one address is found is left open; only the locks on the same identifier are modelled, not those on others of its shard.
-/

namespace Verif.ShmConc

/-- A segment, `/repo/src/safeposix/shm.rs` 12-22. -/
structure Seg where
  key : Int
  nattch : Nat
  rmid : Bool
  deriving DecidableEq, Repr

/-- An element of the `rev_shm` of cage `cage`, `/repo/src/safeposix/cage.rs` 114. -/
structure Att where
  cage : Nat
  addr : Nat
  id : Nat
  deriving DecidableEq, Repr

/-- Where a thread is; the lines are those of `/repo/src/safeposix/syscalls/fs_calls.rs`. -/
inductive Pc
  /-- not in a call -/
  | idle
  /-- `shmget`: the key is in the table, the segment is not yet, 5730 -/
  | get2 (k : Int) (id : Nat)
  /-- `shmat`: it has the segment and wants `rev_shm`, 5790 -/
  | at2 (c addr id : Nat)
  /-- `shmat`: it has the segment, and the pair is in `rev_shm`, 5794 -/
  | at3 (c addr id : Nat)
  /-- `shmdt`: it has `rev_shm` and wants the segment, 5878 -/
  | dt2 (c addr id : Nat)
  /-- `shmdt`: the segment is removed, the key not yet, 5906; it has `rev_shm` -/
  | dt3 (c : Nat) (k : Int) (id : Nat)
  /-- `shmctl`: it has given the segment back and is about to remove it, 5940 -/
  | rm2 (id : Nat) (k : Int)
  /-- `shmctl`: the segment is removed, the key not yet, 5941 -/
  | rm3 (k : Int)
  /-- the `panic!` of 5913 -/
  | dead
  deriving DecidableEq, Repr

/-- `ShmMetadata`, `/repo/src/safeposix/shm.rs` 125-146, the attachments, the locks with the threads that have them, and the threads. -/
structure St where
  next : Nat
  keys : Int → Option Nat
  segs : Nat → Option Seg
  rev : List Att
  lock : Nat → Option Nat
  rlock : Nat → Option Nat
  pc : Nat → Pc

/-- `init_shm_metadata`, `/repo/src/safeposix/shm.rs` 133-139. -/
def init : St :=
  { next := 1, keys := fun _ => none, segs := fun _ => none, rev := [], lock := fun _ => none, rlock := fun _ => none
    pc := fun _ => .idle }

/-- A call, or going on with the one begun. -/
inductive Ev
  | get (k : Int) (creat excl : Bool)
  | at (c id addr : Nat)
  | dt (c addr : Nat)
  | rm (id : Nat)
  | go
  deriving DecidableEq, Repr

def St.put (s : St) (t : Nat) (p : Pc) : St := { s with pc := updK s.pc t p }

/-- `Step s t e r s'`: thread `t` can do `e` in `s`; `r` is the answer if that ends the call. -/
inductive Step : St → Nat → Ev → Option Ret → St → Prop
  /-- 5692-5705: the key is in use -/
  | getThere {s t k creat excl} {id : Nat} : s.pc t = .idle → s.keys k = some id → ¬ (creat = true ∧ excl = true) →
      Step s t (.get k creat excl) (some (.ok id)) s
  | getExcl {s t k id} : s.pc t = .idle → s.keys k = some id → Step s t (.get k true true) (some (.err .EEXIST)) s
  /-- 5707-5715 -/
  | getNone {s t k excl} : s.pc t = .idle → s.keys k = none → Step s t (.get k false excl) (some (.err .ENOENT)) s
  /-- 5728-5730: the lock on the key is given back at the end of the statement that inserts it -/
  | getNew {s t k excl} : s.pc t = .idle → s.keys k = none →
      Step s t (.get k true excl) none
        ({ s with next := s.next + 1, keys := updK s.keys k (some s.next) }.put t (.get2 k s.next))
  /-- 5743 -/
  | getPut {s t k} {id : Nat} : s.pc t = .get2 k id → s.lock id = none →
      Step s t .go (some (.ok id)) ({ s with segs := updK s.segs id (some ⟨k, 0, false⟩) }.put t .idle)
  /-- 5826-5828 -/
  | atNone {s t c id addr} : s.pc t = .idle → s.segs id = none → Step s t (.at c id addr) (some (.err .EINVAL)) s
  /-- 5782: `get_mut` waits for the lock -/
  | atLock {s t c id addr} : s.pc t = .idle → s.segs id ≠ none → s.lock id = none →
      Step s t (.at c id addr) none ({ s with lock := updK s.lock id (some t) }.put t (.at2 c addr id))
  /-- 5790-5794 -/
  | atPush {s t c addr id} : s.pc t = .at2 c addr id → s.rlock c = none →
      Step s t .go none ({ s with rev := ⟨c, addr, id⟩ :: s.rev }.put t (.at3 c addr id))
  /-- 5825 and `map_shm`, `/repo/src/safeposix/shm.rs` 76-98 -/
  | atMap {s t c id g} {addr : Nat} : s.pc t = .at3 c addr id → s.segs id = some g →
      Step s t .go (some (.ok addr))
        ({ s with segs := updK s.segs id (some { g with nattch := g.nattch + 1 }), lock := updK s.lock id none }.put t .idle)
  /-- 5866-5869, 5916-5922 -/
  | dtNone {s t c addr} : s.pc t = .idle → s.rlock c = none → (∀ a ∈ s.rev, a.cage = c → a.addr ≠ addr) →
      Step s t (.dt c addr) (some (.err .EINVAL)) s
  /-- 5866-5875 -/
  | dtLock {s t c addr id} : s.pc t = .idle → s.rlock c = none → ⟨c, addr, id⟩ ∈ s.rev →
      Step s t (.dt c addr) none ({ s with rlock := updK s.rlock c (some t) }.put t (.dt2 c addr id))
  /-- 5912-5914; the unwinding gives `rev_shm` back -/
  | dtPanic {s t c addr id} : s.pc t = .dt2 c addr id → s.lock id = none → s.segs id = none →
      Step s t .go (some .panic) ({ s with rlock := updK s.rlock c none }.put t .dead)
  /-- 5879-5899, 5910: others are attached, or the segment is not marked -/
  | dtKeep {s t c addr g} {id : Nat} : s.pc t = .dt2 c addr id → s.lock id = none → s.segs id = some g →
      ¬ (g.rmid = true ∧ g.nattch - 1 = 0) →
      Step s t .go (some (.ok id))
        ({ s with segs := updK s.segs id (some { g with nattch := g.nattch - 1 }), rev := s.rev.erase ⟨c, addr, id⟩
                  rlock := updK s.rlock c none }.put t .idle)
  /-- 5879-5906: the last of a marked segment -/
  | dtLast {s t c addr id g} : s.pc t = .dt2 c addr id → s.lock id = none → s.segs id = some g →
      g.rmid = true → g.nattch - 1 = 0 →
      Step s t .go none
        ({ s with segs := updK s.segs id none, rev := s.rev.erase ⟨c, addr, id⟩ }.put t (.dt3 c g.key id))
  /-- 5907-5910 -/
  | dtKey {s t c k} {id : Nat} : s.pc t = .dt3 c k id →
      Step s t .go (some (.ok (id : Nat))) ({ s with keys := updK s.keys k none, rlock := updK s.rlock c none }.put t .idle)
  /-- 5953-5955 -/
  | rmNone {s t id} : s.pc t = .idle → s.segs id = none → Step s t (.rm id) (some (.err .EINVAL)) s
  /-- 5935-5938: attached -/
  | rmMark {s t id g} : s.pc t = .idle → s.segs id = some g → s.lock id = none → g.nattch ≠ 0 →
      Step s t (.rm id) (some (.ok 0)) { s with segs := updK s.segs id (some { g with rmid := true }) }
  /-- 5935-5940 -/
  | rmDrop {s t id g} : s.pc t = .idle → s.segs id = some g → s.lock id = none → g.nattch = 0 →
      Step s t (.rm id) none ({ s with segs := updK s.segs id (some { g with rmid := true }) }.put t (.rm2 id g.key))
  /-- 5941 -/
  | rmSeg {s t id k} : s.pc t = .rm2 id k → s.lock id = none →
      Step s t .go none ({ s with segs := updK s.segs id none }.put t (.rm3 k))
  /-- 5942 -/
  | rmKey {s t k} : s.pc t = .rm3 k → Step s t .go (some (.ok 0)) ({ s with keys := updK s.keys k none }.put t .idle)

/-- Runs all of whose steps satisfy `P`. -/
inductive Run (P : St → Ev → Prop) : St → St → Prop
  | refl {s} : Run P s s
  | tail {s s1 t e r s2} : Run P s s1 → P s1 e → Step s1 t e r s2 → Run P s s2

/-- No condition. -/
def Any : St → Ev → Prop := fun _ _ => True

end Verif.ShmConc
