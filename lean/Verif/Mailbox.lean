import Verif.NamesKeptProps
import Verif.NsAnswers
import Verif.RecoveryWitness

/-!
# Handing over work under a name (C112)

How programs pass jobs to workers through a directory: a job is written as a file under a private name and then put, complete, under a name that the
workers look at (`link`, which refuses a name in use); a worker claims it by renaming that name to one of its own, and whoever's rename succeeds has the
job.  The program is modelled on the kernel model; the calls of any number of posters and workers and any other calls come in any order.
-/

namespace Verif.Mailbox
open Verif.Fs Verif.Kernel Verif.Path

/-- The state, the objects that were posted, and the objects that were claimed, each with the worker, in order.  Not part of /repo; the calls are
`/repo/src/safeposix/syscalls/fs_calls.rs` 787-930 (`link_syscall`) and 4902-4973 (`rename_syscall`). -/
structure Conf where
  s : State
  posted : List Nat
  claimed : List (Nat × Nat)

/-- What can happen next: calls of `/repo/src/safeposix/syscalls/fs_calls.rs` 787-930 and 4902-4973, and any others. -/
inductive Move
  /-- a process puts what it has under its name `p` under the name `q` that the workers look at -/
  | post (c : Nat) (p q : Str)
  /-- a worker renames what is there to its own name `q` -/
  | claim (c : Nat) (p q : Str)
  /-- any other call of any process -/
  | other (c : Nat) (op : Op)

/-- One move: `link_syscall`, `/repo/src/safeposix/syscalls/fs_calls.rs` 787-930, and `rename_syscall`, 4902-4973, through the kernel model.  An object
is posted or claimed when the call answered 0; which object that is, is what the old name led to before the call. -/
inductive Next : Conf → Move → Conf → Prop
  | posted {x : Conf} {c p q cg k} (hc : x.s.cages c = some cg) (hk : Leads x.s cg p k) (h : (step x.s c (.link p q)).2.ret = .ok 0) :
      Next x (.post c p q) { x with s := (step x.s c (.link p q)).1, posted := x.posted ++ [k] }
  | notPosted {x : Conf} {c p q} (h : (step x.s c (.link p q)).2.ret ≠ .ok 0) :
      Next x (.post c p q) { x with s := (step x.s c (.link p q)).1 }
  | claimed {x : Conf} {c p q cg k} (hc : x.s.cages c = some cg) (hk : Leads x.s cg p k) (h : (step x.s c (.rename p q)).2.ret = .ok 0) :
      Next x (.claim c p q) { x with s := (step x.s c (.rename p q)).1, claimed := x.claimed ++ [(c, k)] }
  | notClaimed {x : Conf} {c p q} (h : (step x.s c (.rename p q)).2.ret ≠ .ok 0) :
      Next x (.claim c p q) { x with s := (step x.s c (.rename p q)).1 }
  | other {x : Conf} {c op} : Next x (.other c op) { x with s := (step x.s c op).1 }

/-! ## Specification -/

/-- What the path from the root leads to. -/
def Holds (s : State) (N : List Name) (k : Nat) : Prop := Walk s.fs.inodes rootIno N k

/-- The moves: posters and workers use paths that name `N`, relative to whatever directory; a worker's own name is free; and no other call is asked to
make, remove or rename `N` or a directory above it. -/
def Fair (N : List Name) (x : Conf) : Move → Prop
  | .post c _ q => ∃ cg, x.s.cages c = some cg ∧ cg.path q = N
  | .claim c p q => ∃ cg, x.s.cages c = some cg ∧ cg.path p = N ∧ ∀ j, ¬ Leads x.s cg q j
  | .other c op => Tame x.s c op ∧ (step x.s c op).2.ret ≠ .panic ∧ ∀ q ∈ takes x.s c op ++ makes x.s c op, ¬ q <+: N

inductive Runs (N : List Name) : Conf → List Move → Conf → Prop
  | nil (x : Conf) : Runs N x [] x
  | cons {x y z : Conf} {m : Move} {ms : List Move} (h : Fair N x m) (hn : Next x m y) (hr : Runs N y ms z) : Runs N x (m :: ms) z

/-- The start: nothing was posted yet, and there is no such file. -/
structure Start (N : List Name) (x : Conf) : Prop where
  reach : Reach x.s
  none_posted : x.posted = []
  none_claimed : x.claimed = []
  good : ∀ n ∈ N, Good n
  missing : ∀ k, ¬ Holds x.s N k

end Verif.Mailbox
