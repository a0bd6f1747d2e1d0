import Verif.NamesKeptSpec
import Verif.NsAnswers

/-!
# The names of one file (specification for C117)

Nothing of /repo is modelled here; the calls are those of `Kernel`.
-/

namespace Verif.Alias
open Verif.Fs Verif.Kernel Verif.Path

/-- To the process `c` the two paths, neither empty, lead to the same object. -/
def Both (s : State) (c : Nat) (p p' : Str) : Prop := p ≠ [] ∧ p' ≠ [] ∧ ∃ cg i, s.cages c = some cg ∧ Leads s cg p i ∧ Leads s cg p' i

/-- The second call is the first with the path that says which object is meant exchanged for another one to the same object. -/
inductive Swap (s : State) (c : Nat) : Op → Op → Prop
  | same (op : Op) : Swap s c op op
  | open_ {p p' : Str} (flags mode : BitVec 32) : Both s c p p' → Swap s c (.openP p flags mode) (.openP p' flags mode)
  | mkdir {p p' : Str} (mode : BitVec 32) : Both s c p p' → Swap s c (.mkdir p mode) (.mkdir p' mode)
  | mknod {p p' : Str} (mode : BitVec 32) (dev : BitVec 64) : Both s c p p' → Swap s c (.mknod p mode dev) (.mknod p' mode dev)
  | link {p p' : Str} (new : Str) : Both s c p p' → Swap s c (.link p new) (.link p' new)
  | chmod {p p' : Str} (mode : BitVec 32) : Both s c p p' → Swap s c (.chmod p mode) (.chmod p' mode)
  | stat {p p' : Str} : Both s c p p' → Swap s c (.stat p) (.stat p')
  | access {p p' : Str} (m : BitVec 32) : Both s c p p' → Swap s c (.access p m) (.access p' m)
  | truncate {p p' : Str} (len : Int) : Both s c p p' → Swap s c (.truncate p len) (.truncate p' len)
  | chdir {p p' : Str} : Both s c p p' → Swap s c (.chdir p) (.chdir p')

/-- The second history is the first with paths exchanged in any number of calls. -/
inductive Swapped : State → List (Nat × Op) → List (Nat × Op) → Prop
  | nil (s : State) : Swapped s [] []
  | cons {s : State} {c : Nat} {op op' : Op} {h h' : List (Nat × Op)} (h1 : Swap s c op op') (h2 : Swapped (step s c op).1 h h') :
      Swapped s ((c, op) :: h) ((c, op') :: h')

/-- What the calls of a history answer, in order. -/
def answers : State → List (Nat × Op) → List Out
  | _, [] => []
  | s, (c, op) :: h => (step s c op).2 :: answers (step s c op).1 h

end Verif.Alias
