import Verif.NsCalls

/-!
# Words for C96: which paths a call may take away or make
-/

namespace Verif.Kernel
open Verif.Path Verif.Fs

/-- The path that a call is asked to remove, as names from the root. -/
def takes (s : State) (c : Nat) (op : Op) : List (List Name) :=
  match s.cages c, op with
  | some cg, .unlink p => [cg.path p]
  | some cg, .rmdir p => [cg.path p]
  | some cg, .rename o _ => [cg.path o]
  | _, _ => []

/-- The path that a call is asked to make. -/
def makes (s : State) (c : Nat) (op : Op) : List (List Name) :=
  match s.cages c, op with
  | some cg, .openP p fl _ => if fl &&& oCREAT = 0 then [] else [cg.path p]
  | some cg, .mkdir p _ => [cg.path p]
  | some cg, .mknod p _ _ => [cg.path p]
  | some cg, .link _ n => [cg.path n]
  | some cg, .rename _ n => [cg.path n]
  | _, _ => []

/-- The same over a history. -/
def takesAll (s : State) : List (Nat × Op) → List (List Name)
  | [] => []
  | (c, op) :: h => takes s c op ++ takesAll (step s c op).1 h

def makesAll (s : State) : List (Nat × Op) → List (List Name)
  | [] => []
  | (c, op) :: h => makes s c op ++ makesAll (step s c op).1 h

/-- A history of calls, each of which is not in the excluded cases of C13 and C24 (`Tame`) and does not abort. -/
inductive Runs : State → List (Nat × Op) → Prop
  | nil (s : State) : Runs s []
  | cons {s : State} {c : Nat} {op : Op} {h : List (Nat × Op)} (h1 : Tame s c op) (h2 : (step s c op).2.ret ≠ .panic)
      (h3 : Runs (step s c op).1 h) : Runs s ((c, op) :: h)

end Verif.Kernel
