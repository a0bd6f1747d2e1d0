import Verif.FdProps
import Verif.PipeHist

/-!
# Who can come to hold a pipe or an open file (specification for C107)

Nothing of /repo is modelled here; the calls are those of `Kernel`.  A history is followed by a set of cages, the entitled: those which made
the object or inherited the right to it.  What they do with their descriptors is not looked at, so the set says only who was given access.
-/

namespace Verif.Confine
open Verif.Kernel

/-- An object descriptors designate. -/
inductive Obj
  | file (i : Nat)
  | pipe (id : Nat)

/-- Cage `k` has a descriptor for the object. -/
def Has (s : State) (k : Nat) : Obj → Prop
  | .file i => ∃ fd pos f, slot s k fd = some (.file i pos f)
  | .pipe id => ∃ fd f, slot s k fd = some (.pipe id f)

/-- The call of `c` gave it the object: `open` returned a descriptor for that file, or `pipe2` made that pipe.  (Pipes are numbered in the order in
which they are made; `npipe` is the number of those made so far.) -/
def Makes (s : State) (c : Nat) (op : Op) : Obj → Prop
  | .file i => (∃ p fl m, op = .openP p fl m) ∧ ∃ v : Nat, (step s c op).2.ret = .ok v ∧ ∃ pos f, slot (step s c op).1 c v = some (.file i pos f)
  | .pipe id => (∃ fl, op = .pipe2 fl) ∧ id = s.npipe ∧ id < (step s c op).1.npipe

/-- The entitled after a call of `c`: the child of an entitled cage is entitled, and so is the program an entitled cage executes; the child of another
is not, even if its number was used before.  A cage that is gone is not entitled.  A call that makes the object entitles its caller.  Nothing else
entitles anybody. -/
def heirs (o : Obj) (s : State) (c : Nat) (op : Op) (E : Nat → Prop) (k : Nat) : Prop :=
  if (step s c op).2.ret = .panic then E k
  else
    match op with
    | .fork ch => if k = ch then E c else E k
    | .exec ch => if k = ch then E c else k ≠ c ∧ E k
    | .exit _ => k ≠ c ∧ E k
    | _ => E k ∨ (k = c ∧ Makes s c op o)

/-- The entitled after a history. -/
def entitled (o : Obj) : State → List (Nat × Op) → (Nat → Prop) → Nat → Prop
  | _, [], E => E
  | s, (c, op) :: h, E => entitled o (step s c op).1 h (heirs o s c op E)

end Verif.Confine
