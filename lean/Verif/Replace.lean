import Verif.PipelineInv
import Verif.RecoveryWitness

/-!
# Replacing a file: a new one is written beside it and renamed over it (C103)

What editors, package managers and databases do: write the new content to another name in the same directory, then `rename` it over the name of the
old file.  The program is modelled on the kernel model as in `Pipeline`; its calls and those of any other processes come in any order.
-/

namespace Verif.Replace
open Verif.Fs Verif.Kernel Verif.Path
open Verif.Pipe (Pipe)

/-- The program (not part of /repo; it calls `/repo/src/safeposix/syscalls/fs_calls.rs` 2009-2198, 4910-4973): process `c` writes descriptor `fd`, and renames `tmp` to `new`, which are the paths `T` and `N` from the root. -/
structure Plan where
  c : Nat
  fd : Nat
  tmp : Str
  new : Str
  T : List Name
  N : List Name

/-- What the program has still to write, and whether it has renamed the file. -/
structure Conf where
  s : State
  left : List UInt8
  done : Bool

/-- What can happen next: calls of `/repo/src/safeposix/syscalls/fs_calls.rs` 2009-2198 and 4910-4973, and any others. -/
inductive Move
  /-- the program writes up to `n` of the bytes left -/
  | put (n : Nat)
  /-- the program renames the file, when everything is written -/
  | swap
  /-- another call, of another process or another thread -/
  | other (c : Nat) (op : Op)

/-- One move: `write_syscall`, `/repo/src/safeposix/syscalls/fs_calls.rs` 2009-2198, or `rename_syscall`, 4910-4973, through the kernel model; the program
takes the answer of a write as the number of bytes written. -/
def next (P : Plan) (x : Conf) : Move → Conf
  | .put n =>
    if x.done then x
    else
      let r := step x.s P.c (.write P.fd (x.left.take n))
      { x with s := r.1, left := match r.2.ret with | .ok v => x.left.drop v.toNat | _ => x.left }
  | .swap =>
    if x.done = false ∧ x.left = [] then
      let r := step x.s P.c (.rename P.tmp P.new)
      { x with s := r.1, done := decide (r.2.ret = .ok 0) }
    else x
  | .other c op => { x with s := (step x.s c op).1 }

/-! ## Specification -/

/-- The path from the root leads to the object. -/
def To (s : State) (p : List Name) (k : Nat) : Prop := Walk s.fs.inodes rootIno p k

/-- A call of somebody else leaves alone what the program uses: its descriptor, the bytes of the two files, and what the two names lead to. -/
structure Kept (P : Plan) (i j : Nat) (s s' : State) : Prop where
  fd : slot s' P.c P.fd = slot s P.c P.fd
  old : bytes s' i = bytes s i
  new : bytes s' j = bytes s j
  names : ∀ k, (To s P.T k → To s' P.T k) ∧ (To s P.N k → To s' P.N k)
  cwd : ∀ cg, s.cages P.c = some cg → ∃ cg', s'.cages P.c = some cg' ∧ cg'.path P.tmp = cg.path P.tmp ∧ cg'.path P.new = cg.path P.new

def Fair (P : Plan) (i j : Nat) (x : Conf) : Move → Prop
  | .put n => n < 2147483648
  | .swap => True
  | .other c op => (x.done = false → Tame x.s c op ∧ (step x.s c op).2.ret ≠ .panic) ∧ Kept P i j x.s (step x.s c op).1

inductive Runs (P : Plan) (i j : Nat) : Conf → List Move → Conf → Prop
  | nil (x : Conf) : Runs P i j x [] x
  | cons {x y : Conf} {m : Move} {ms : List Move} (h : Fair P i j x m) (hr : Runs P i j (next P x m) ms y) : Runs P i j x (m :: ms) y

/-- The start: the name leads to the old file `i`, the other name, in the same directory, to the new and empty regular file `j`, on which the
descriptor is open for writing. -/
structure Start (P : Plan) (i j : Nat) (x : Conf) : Prop where
  reach : Reach x.s
  live : x.done = false
  ne : i ≠ j
  fd : ∃ f, OpenOn x.s P.c P.fd j 0 f ∧ f &&& 3#32 ≠ 0#32 ∧ IsFile x.s j 0
  paths : ∃ cg, x.s.cages P.c = some cg ∧ P.tmp ≠ [] ∧ P.new ≠ [] ∧ cg.path P.tmp = P.T ∧ cg.path P.new = P.N
  dir : ∃ ps o n, P.T = ps ++ [o] ∧ P.N = ps ++ [n]
  tmp : To x.s P.T j
  new : To x.s P.N i

end Verif.Replace
