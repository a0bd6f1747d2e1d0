import Verif.DataConc

/-!
# What it means that concurrent calls on open files behave like calls one after the other

The specification is an automaton whose only way to change the state is one whole call of the sequential model
(`Kernel.step`) at once.  A call is announced (`call`), takes effect at one moment between its begin and its end
(`commit`, not visible), and returns (`ret`).  A schedule of the concurrent model is correct if its calls and
returns, in their order, are those of a run of this automaton: linearizability.
-/

namespace Verif.DataConc
open Verif.Fs Verif.Kernel

/-- A call begins, or returns. -/
inductive Ev
  | call (t : Nat) (j : Job)
  | ret (t : Nat) (o : Out)
  deriving DecidableEq, Repr

/-- What is seen of one action. -/
def observe (C : Conc) : Act → List Ev
  | .start t j => if (step C (.start t j)).job t = C.job t then [] else [.call t j]
  | .go t =>
    match C.pc t, (step C (.go t)).job t with
    | .leave o, none => [.ret t o]
    | _, _ => []

/-- What is seen of a schedule. -/
def trace (C : Conc) : List Act → List Ev
  | [] => []
  | a :: as => observe C a ++ trace (step C a) as

/-- The state of the specification: the memory, and the calls under way with their answer once they have taken effect. -/
structure Abs where
  s : State
  pend : Nat → Option (Job × Option Out)

/-- The runs of the specification, with what is seen of them. -/
inductive Abs.Runs : Abs → List Ev → Abs → Prop
  | refl (A : Abs) : Runs A [] A
  | call {A B : Abs} {t : Nat} {j : Job} {es : List Ev} : A.pend t = none →
      Runs ⟨A.s, upd A.pend t (some (j, none))⟩ es B → Runs A (.call t j :: es) B
  | commit {A B : Abs} {t : Nat} {j : Job} {es : List Ev} : A.pend t = some (j, none) →
      Runs ⟨(Kernel.step A.s j.cage (j.call.op j.fd)).1,
        upd A.pend t (some (j, some (Kernel.step A.s j.cage (j.call.op j.fd)).2))⟩ es B → Runs A es B
  | ret {A B : Abs} {t : Nat} {j : Job} {o : Out} {es : List Ev} : A.pend t = some (j, some o) →
      Runs ⟨A.s, upd A.pend t none⟩ es B → Runs A (.ret t o :: es) B

theorem Abs.Runs.trans {A B C : Abs} {es es' : List Ev} (h : A.Runs es B) (h' : B.Runs es' C) : A.Runs (es ++ es') C := by
  induction h with
  | refl => exact h'
  | call h1 _ ih => exact .call h1 (ih h')
  | commit h1 _ ih => exact .commit h1 (ih h')
  | ret h1 _ ih => exact .ret h1 (ih h')

/-- Two states that are the same but for the log of the file system. -/
def SameButLog (a b : State) : Prop := { a with fs := { a.fs with log := [] } } = { b with fs := { b.fs with log := [] } }

/-- Nobody is calling. -/
def AtRest (C : Conc) : Prop := ∀ t, C.job t = none

end Verif.DataConc
