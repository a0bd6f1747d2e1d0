import Verif.FollowProps

/-!
# A file of records shared by several processes (C113)

The simplest data base: records of one size at fixed places in a file, written with `pwrite` and read with `pread` by any number of processes, each
through a descriptor of its own.  On the kernel model, each call one step; the calls of all processes, and any other calls, come in any order.
-/

namespace Verif.Records
open Verif.Fs Verif.Kernel Verif.Path

/-! ## Specification -/

/-- The processes, the descriptor each of them has for the file, the file, the size of a record and how many there are. -/
structure Plan where
  users : List Nat
  fd : Nat → Nat
  i : Nat
  size : Nat
  count : Nat

/-- What a process did or saw. -/
inductive Event
  | wrote (c k : Nat) (d : List UInt8)
  | saw (c k : Nat) (d : List UInt8)
  deriving DecidableEq

/-- The system, and what happened so far. -/
structure Conf where
  s : State
  events : List Event

inductive Move
  /-- a process writes record `k` -/
  | put (c k : Nat) (d : List UInt8)
  /-- a process reads record `k` -/
  | get (c k : Nat)
  /-- another call -/
  | other (c : Nat) (op : Op)

/-- One move: what is noted down is what the process handed over or was given.  The calls are `pwrite_syscall` and `pread_syscall`,
`/repo/src/safeposix/syscalls/fs_calls.rs` 2244-2383 and 1791-1893, through the kernel model. -/
def next (P : Plan) (x : Conf) : Move → Conf
  | .put c k d => { s := (step x.s c (.pwrite (P.fd c) d (P.size * k : Nat))).1, events := x.events ++ [.wrote c k d] }
  | .get c k =>
    { s := (step x.s c (.pread (P.fd c) P.size (P.size * k : Nat))).1,
      events := x.events ++ [.saw c k (step x.s c (.pread (P.fd c) P.size (P.size * k : Nat))).2.data] }
  | .other c op => { x with s := (step x.s c op).1 }

/-- Whole records are written, and only those that there are; other calls do not change the file (`Edits`), and those of the processes themselves leave
their descriptors open on the file as they were, but may move their positions. -/
def Fair (P : Plan) (x : Conf) : Move → Prop
  | .put c k d => c ∈ P.users ∧ k < P.count ∧ d.length = P.size
  | .get c k => c ∈ P.users ∧ k < P.count
  | .other c op => Tame x.s c op ∧ (step x.s c op).2.ret ≠ .panic ∧ (∀ e, ¬ Edits x.s c P.i op e) ∧
      (c ∈ P.users → ∀ pos f, slot x.s c (P.fd c) = some (.file P.i pos f) → ∃ pos', slot (step x.s c op).1 c (P.fd c) = some (.file P.i pos' f))

inductive Runs (P : Plan) : Conf → List Move → Conf → Prop
  | nil (x : Conf) : Runs P x [] x
  | cons {x y : Conf} {m : Move} {ms : List Move} (h : Fair P x m) (hr : Runs P (next P x m) ms y) : Runs P x (m :: ms) y

/-- The start: every process has a descriptor for reading and writing on a regular file in which all records have their place. -/
structure Start (P : Plan) (x : Conf) : Prop where
  reach : Reach x.s
  events : x.events = []
  any : P.users ≠ []
  small : P.size < 2147483648
  file : ∃ n, IsFile x.s P.i n
  long : P.size * P.count ≤ (bytes x.s P.i).length
  rw : ∀ c ∈ P.users, ∃ pos f, OpenOn x.s c (P.fd c) P.i pos f ∧ f &&& 3#32 = 2#32

/-- The bytes at the place of record `k`. -/
def record (P : Plan) (s : State) (k : Nat) : List UInt8 := ((bytes s P.i).drop (P.size * k)).take P.size

/-- A table, after what happened: each record is the one written last. -/
def after (t : Nat → List UInt8) : List Event → Nat → List UInt8
  | [] => t
  | .wrote _ j d :: es => after (fun k => if k = j then d else t k) es
  | .saw _ _ _ :: es => after t es

/-- Everybody who looked at a record saw the one written last. -/
def Legal (t : Nat → List UInt8) (es : List Event) : Prop :=
  ∀ pre post c k d, es = pre ++ .saw c k d :: post → d = after t pre k

end Verif.Records
