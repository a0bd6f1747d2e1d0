import Verif.NameConcSolo
import Verif.FsInv

/-!
# What it means that concurrent path calls behave like calls one after the other

The specification is an automaton whose only way to change the file system is to run one whole call of `Verif.Fs` at once
(`commit`).  A call is announced (`call`), takes effect at one moment (`commit`, not visible), and
returns (`ret`).  A schedule of the concurrent model is correct if its calls and returns, in
their order, are those of a run of this automaton: this is linearizability.
-/

namespace Verif.NameConc
open Verif.Path Verif.Fs

/-! ## What can be seen of a schedule -/

/-- A call begins, or returns. -/
inductive Ev
  | call (t : Nat) (c : Call)
  | ret (t : Nat) (o : Out)
  deriving DecidableEq, Repr

/-- What is seen of one action. -/
def observe (s : State) : Act → List Ev
  | .start t c => if (step s (.start t c)).call t = s.call t then [] else [.call t c]
  | .go t =>
    match s.call t, (step s (.go t)).call t, (step s (.go t)).res t with
    | some _, none, some o => [.ret t o]
    | _, _, _ => []

/-- What is seen of a schedule. -/
def trace (s : State) : List Act → List Ev
  | [] => []
  | a :: as => observe s a ++ trace (step s a) as

/-! ## The specification -/

/-- The file system, the descriptors on each inode, and the calls under way with their result once
they have taken effect. -/
structure Abs where
  fs : Fs
  held : Nat → Nat
  pend : Nat → Option (Call × Option Out)

/-- The descriptors after a call. -/
def holds (held : Nat → Nat) : Call → Out → Nat → Nat
  | .close i, _ => upd held i (held i - 1)
  | _, .opened i _ => upd held i (held i + 1)
  | _, _ => held

/-- Two results that are the same, but for the number of links that `stat` reports: another call may have changed the
count of a file before the entry, or the other way round. -/
def alike : Out → Out → Prop
  | .stat a, .stat b => { a with nlink := 0 } = { b with nlink := 0 }
  | a, b => a = b

/-- The runs of the specification, with what is seen of them. -/
inductive Abs.Runs : Abs → List Ev → Abs → Prop
  | refl (A : Abs) : Runs A [] A
  | call {A B : Abs} {t : Nat} {c : Call} {es : List Ev} : A.pend t = none →
      Runs { A with pend := upd A.pend t (some (c, none)) } es B → Runs A (.call t c :: es) B
  | commit {A B : Abs} {t : Nat} {c : Call} {fs : Fs} {o : Out} {es : List Ev} : A.pend t = some (c, none) →
      atomic A.fs c = some (fs, o) →
      Runs { fs := fs, held := holds A.held c o, pend := upd A.pend t (some (c, some o)) } es B → Runs A es B
  | ret {A B : Abs} {t : Nat} {c : Call} {o o' : Out} {es : List Ev} : A.pend t = some (c, some o) → alike o o' →
      Runs { A with pend := upd A.pend t none } es B → Runs A (.ret t o' :: es) B

theorem Abs.Runs.trans {A B C : Abs} {es es' : List Ev} (h : A.Runs es B) (h' : B.Runs es' C) : A.Runs (es ++ es') C := by
  induction h with
  | refl => exact h'
  | call h1 _ ih => exact .call h1 (ih h')
  | commit h1 h2 _ ih => exact .commit h1 h2 (ih h')
  | ret h1 h2 _ ih => exact .ret h1 h2 (ih h')

/-- Two file systems that are the same but for the order of the entries in their directories (they are hash maps),
the log and the table of socket names. -/
structure SameFs (a b : Fs) : Prop where
  next : a.next = b.next
  fobj : ∀ i, a.fobj i = b.fobj i
  disk : ∀ i, a.disk i = b.disk i
  gone : ∀ i, a.inodes i = none ↔ b.inodes i = none
  node : ∀ i x y, a.inodes i = some x → b.inodes i = some y →
    x.ents.Perm y.ents ∧ { x with ents := [] } = { y with ents := [] }

/-! ## Which schedules -/

/-- The paths of a call. -/
def Call.names : Call → List (List Name)
  | .mkdir p _ | .mknod p _ _ | .open p _ _ | .unlink p | .rmdir p | .stat p | .chmod p _ => [p]
  | .link old new | .rename old new => [old, new]
  | .close _ => []

/-- The paths whose meaning (or, for chmod, whose permission) the call changes. -/
def Call.changes : Call → List (List Name)
  | .mkdir p _ | .mknod p _ _ | .unlink p | .rmdir p | .chmod p _ => [p]
  | .open p flags _ => if flags &&& oCREAT = 0 then [] else [p]
  | .link _ new => [new]
  | .rename old new => [old, new]
  | .stat _ | .close _ => []

/-- Neither call changes a path on the way to a path of the other. -/
def Apart (a b : Call) : Prop :=
  (∀ p ∈ a.changes, ∀ q ∈ b.names, ¬ p <+: q) ∧ (∀ p ∈ b.changes, ∀ q ∈ a.names, ¬ p <+: q)

/-- An action of a disciplined schedule.  A call begins only if it is apart from the calls under way.  The other
conditions keep out what goes wrong for a single call too: linking to `/`, closing what is not open, unlinking in a directory
that is not writable, renaming to a name that is taken, removing a directory whose mode is not that of one. -/
def Allowed (s : State) : Act → Prop
  | .start t c =>
    (∀ p ∈ c.names, ∀ n ∈ p, Good n) ∧ (∀ u c', u ≠ t → s.call u = some c' → Apart c c') ∧
    match c with
    | .link _ new => new ≠ []
    | .close i => 0 < s.held i
    | _ => True
  | .go t =>
    match s.pc t with
    | .unlinkDec _ _ par => ∀ pd, s.fs.inodes par = some pd → pd.mode &&& sIWALL ≠ 0
    | .renameEdit _ new _ par => ∀ pd n, s.fs.inodes par = some pd → new.getLast? = some n → entGet pd.ents n = none
    | .rmdirNode _ i _ => ∀ nd, s.fs.inodes i = some nd → modeIsDir nd.mode
    | _ => True

/-- Every action is allowed when it happens. -/
def Disciplined (s : State) : List Act → Prop
  | [] => True
  | a :: as => Allowed s a ∧ Disciplined (step s a) as

end Verif.NameConc
