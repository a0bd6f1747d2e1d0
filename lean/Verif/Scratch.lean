import Verif.ConfineProps

/-!
# Files without a name (specification for C116)

Nothing of /repo is modelled here; the calls are those of `Kernel`.  A program that wants a file nobody else can reach opens one and removes its name.
-/

namespace Verif.Scratch
open Verif.Fs Verif.Kernel Verif.Path Verif.Confine

/-- No path leads to the object. -/
def NoPath (s : State) (i : Nat) : Prop := ∀ q, (∀ n ∈ q, isDots n = false) → ¬ Walk s.fs.inodes rootIno q i

/-- The family after a call of `c`: the child of a member is a member, and so is the program a member executes; a number that is used again for the child of
somebody else is not.  Who exits is no longer a member.  Unlike in C107, opening something makes nobody a member. -/
def kin (c : Nat) (op : Op) (E : Nat → Prop) (k : Nat) : Prop :=
  match op with
  | .fork ch => if k = ch then E c else E k
  | .exec ch => if k = ch then E c else k ≠ c ∧ E k
  | .exit _ => k ≠ c ∧ E k
  | _ => E k

/-- The family after a history. -/
def family : List (Nat × Op) → (Nat → Prop) → Nat → Prop
  | [], E => E
  | (c, op) :: h, E => family h (kin c op E)

/-- At the start: a regular file to which no path leads, and descriptors for which only members of the family have. -/
structure Start (E : Nat → Prop) (i : Nat) (s : State) : Prop where
  reach : Reach s
  file : ∃ n, IsFile s i n
  nameless : NoPath s i
  only : ∀ k, Has s k (.file i) → E k

end Verif.Scratch
