import Verif.FlockConc

/-!
# Words for C93
-/

namespace Verif.FlockConc
open Verif.AdvLock

/-- The locks granted on `o` and not given back. -/
def on (s : St) (o : Nat) : List (Nat × Nat × Kind) := s.held.filter (fun x => x.2.1 == o)

/-- Two locks on one file that can be there at the same time. -/
def Compatible (k k' : Kind) : Prop := k = .sh ∧ k' = .sh

instance (k k' : Kind) : Decidable (Compatible k k') := by unfold Compatible; infer_instance

/-- A condition on every step of a run, in the state in which it is made. -/
def Along (P : St → Act → Prop) : St → List Act → Prop
  | _, [] => True
  | s, a :: l => P s a ∧ Along P ((step s a).getD s) l

/-- Threads unlock only what they have locked. -/
def Honest (s : St) : Act → Prop
  | .go t => ∀ fd o, s.thr[t]? = some (.call fd .unlock) → s.fds fd = some o → ∃ k, (t, o, k) ∈ s.held
  | _ => True

/-- Whatever happens from now on, the call of thread `t` does not return. -/
def Hangs (s : St) (t : Nat) : Prop := ∀ acts, Along Honest s acts → (run s acts).thr[t]? ≠ some .idle

/-- The number for a new descriptor is free. -/
def Free (s : St) (op : Op) : Prop := ∀ n, op = .dup n ∨ op = .copy n → s.fds n = none

/-- Descriptors that are waited on with `flock` have one thread each that uses them (`own fd = some t`); the others
(`own fd = none`) are used by anybody, for anything but a `flock` that waits. -/
def Sep (own : Nat → Option Nat) : Act → Prop
  | .call t fd op => match own fd with
    | some u => u = t
    | none => ∀ k, op ≠ .lock k
  | _ => True

end Verif.FlockConc
