import Verif.PipelineInv
import Verif.OpenTruncProps

/-!
# A log file with one writer, and those who follow it: C110

On the kernel model: one process appends records to a file through one descriptor; another reads it as it grows (`tail -f`); calls of
these and of any other processes come in any order.  Each call is one step.  A run is told from the point of view of one follower; there may be
any number of them, the others being among the other processes.
-/

namespace Verif.Follow
open Verif.Fs Verif.Kernel Verif.Path Verif.Pipeline

/-! ## Specification -/

/-- The writer's process and descriptor, the follower's, and the file. -/
structure Plan where
  cw : Nat
  fw : Nat
  cr : Nat
  fr : Nat
  i : Nat

/-- The system, the records written so far and the bytes read so far. -/
structure Conf where
  s : State
  sent : List (List UInt8)
  got : List UInt8

inductive Move
  /-- the writer writes a record -/
  | put (d : List UInt8)
  /-- the follower reads up to `n` bytes -/
  | get (n : Nat)
  /-- another call -/
  | other (c : Nat) (op : Op)

/-- One move: what is noted down is what the writer handed over and what the follower was given. -/
def next (P : Plan) (x : Conf) : Move → Conf
  | .put d => { x with s := (step x.s P.cw (.write P.fw d)).1, sent := x.sent ++ [d] }
  | .get n => { x with s := (step x.s P.cr (.read P.fr n)).1, got := x.got ++ (step x.s P.cr (.read P.fr n)).2.data }
  | .other c op => { x with s := (step x.s c op).1 }

/-- Other calls do not change the file (`Edits`: write, writev, pwrite and ftruncate through a descriptor open on it for writing, truncate of a path
to it, open of a path to it with O_TRUNC); those of the two processes themselves leave the two descriptors alone.  Sizes are below 2^31. -/
def Fair (P : Plan) (x : Conf) : Move → Prop
  | .put d => d.length < 2147483648
  | .get n => n < 2147483648
  | .other c op => Tame x.s c op ∧ (step x.s c op).2.ret ≠ .panic ∧ (∀ e, ¬ Edits x.s c P.i op e) ∧
      (c = P.cw → slot (step x.s c op).1 P.cw P.fw = slot x.s P.cw P.fw) ∧ (c = P.cr → slot (step x.s c op).1 P.cr P.fr = slot x.s P.cr P.fr)

inductive Runs (P : Plan) : Conf → List Move → Conf → Prop
  | nil (x : Conf) : Runs P x [] x
  | cons {x y : Conf} {m : Move} {ms : List Move} (h : Fair P x m) (hr : Runs P (next P x m) ms y) : Runs P x (m :: ms) y

/-- The start: the writer's descriptor is open for writing at the end of a regular file, the follower's for reading at `pos` in it. -/
structure Start (P : Plan) (pos : Nat) (x : Conf) : Prop where
  reach : Reach x.s
  sent : x.sent = []
  got : x.got = []
  two : (P.cw, P.fw) ≠ (P.cr, P.fr)
  file : ∃ n, IsFile x.s P.i n
  wr : ∃ f, OpenOn x.s P.cw P.fw P.i (bytes x.s P.i).length f ∧ f &&& 3#32 ≠ 0#32
  rd : ∃ f, OpenOn x.s P.cr P.fr P.i pos f ∧ f &&& 3#32 ≠ 1#32
  le : pos ≤ (bytes x.s P.i).length

end Verif.Follow
