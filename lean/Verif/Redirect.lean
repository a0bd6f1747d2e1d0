import Verif.ConfineProps

/-!
# Redirections: the descriptors of a program that a shell starts (specification for C108)

Between fork and exec a shell arranges the child's descriptors with `dup2` and `close`.  Here is what that should come to: a plan says, for every
number, which of the numbers the process started with it stands for.  Nothing of /repo is modelled here; the calls are those of `Kernel`
(`/repo/src/safeposix/syscalls/fs_calls.rs` 3342-3530, 3560-3844, `/repo/src/safeposix/syscalls/sys_calls.rs` 440-531).
-/

namespace Verif.Redirect
open Verif.Kernel

/-- `n>&o` and `n>&-` of the shell. -/
inductive Redir
  | onto (o n : Nat)
  | shut (n : Nat)

/-- The call. -/
def Redir.op : Redir → Op
  | .onto o n => .dup2 o n
  | .shut n => .close n

/-- For every number, the original number it stands for and whether it is a copy; `none`: closed. -/
abbrev Plan := Nat → Option (Nat × Bool)

/-- At the start every number stands for itself. -/
def Plan.start : Plan := fun n => some (n, false)

/-- One redirection.  Redirecting a number to itself does nothing. -/
def Plan.after (σ : Plan) : Redir → Plan
  | .onto o n => if o = n then σ else fun k => if k = n then (σ o).map (fun x => (x.1, true)) else σ k
  | .shut n => fun k => if k = n then none else σ k

/-- A list of redirections. -/
def Plan.all (σ : Plan) (rs : List Redir) : Plan := rs.foldl Plan.after σ

/-- A copy of a descriptor: the same object at the same position with the same flags, except that it stays open over exec. -/
def Copy : Desc → Desc → Prop
  | .file i p f, .file j q g => i = j ∧ p = q ∧ g = f &&& ~~~0o2000000#32
  | .pipe i f, .pipe j g => i = j ∧ g = f &&& ~~~0o2000000#32
  | .stream n f, .stream m g => n = m ∧ g = f &&& ~~~0o2000000#32
  | .sock f, .sock g => g = f &&& ~~~0o2000000#32
  | _, _ => False

/-- What a slot must hold, given the table `t` at the start. -/
def Is (t : Nat → Option Desc) : Option (Nat × Bool) → Option Desc → Prop
  | none, x => x = none
  | some (j, b), x =>
    match t j with
    | none => x = none
    | some d => ∃ d', x = some d' ∧ if b then Copy d d' else d' = d

/-- The table is as planned. -/
def Arranged (t : Nat → Option Desc) (σ : Plan) (t' : Nat → Option Desc) : Prop := ∀ k, Is t (σ k) (t' k)

/-- The redirection makes sense: what is copied is open (and not an epoll descriptor, which this system does not copy); the numbers are in range. -/
def Fit (t : Nat → Option Desc) (σ : Plan) : Redir → Prop
  | .onto o n => n < 1024 ∧ ∃ j b d, σ o = some (j, b) ∧ t j = some d ∧ ∀ f, d ≠ .epoll f
  | .shut n => n < 1024

/-- All of them do, each in its turn. -/
def FitAll (t : Nat → Option Desc) : Plan → List Redir → Prop
  | _, [] => True
  | σ, r :: rs => Fit t σ r ∧ FitAll t (σ.after r) rs

/-- The calls of cage `c` in a history are these redirections, in this order; the other cages make any calls. -/
def Does (c : Nat) (h : List (Nat × Op)) (rs : List Redir) : Prop :=
  (h.filter (fun x => x.1 = c)).map (·.2) = rs.map Redir.op

end Verif.Redirect
