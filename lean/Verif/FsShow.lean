import Verif.FsTools

/-!
# Model of the tools that show a directory: `lind_ls` and `lind_tree`

`/repo/src/tools/fs_utils.rs` 29-86 with `visit_children`, `/repo/src/lib_fs_utils.rs` 239-300 (`/repo/src/tools/lib_fs_utils.rs` is the same file).
As in `FsTools`, programs over `Kernel.step` during which nothing else runs; here with what they print to the standard output.  Messages to the
standard error are left out.
-/

namespace Verif.FsShow

open Verif.Path Verif.Fs Verif.Kernel Verif.FsTools

/-- How a program ends: with a state and what it has printed, by a panic, or not within the given number of rounds. -/
inductive Run (α : Type)
  | done (s : State) (out : List α)
  | abort
  | more

/-- First this has been printed, then the rest runs. -/
def Run.after {α : Type} (o : List α) : Run α → Run α
  | .done s o' => .done s (o ++ o')
  | r => r

/-- The visits for the names of one buffer, `/repo/src/lib_fs_utils.rs` 275-297. -/
def visitNames {α : Type} (f : State → Str → Bool → Run α) (c : Nat) (path : Str) : List Str → State → Run α
  | [], s => .done s []
  | n :: ns, s =>
    if n = dot ∨ n = dotdot then visitNames f c path ns s
    else
      let st := (step s c (.stat (child path n))).2
      if st.ret = .panic then .abort
      else
        match f s (child path n) (match st.stat with | some x => modeIsDir x.mode | none => false) with
        | .done s' o => (visitNames f c path ns s').after o
        | r => r

/-- The outer loop of `visit_children`, `/repo/src/lib_fs_utils.rs` 252-298. -/
def visitLoop {α : Type} (f : State → Str → Bool → Run α) (c : Nat) (path : Str) (fd : Int) : Nat → State → Run α
  | 0, _ => .more
  | k + 1, s =>
    let r := step s c (.getdents fd 65536)
    match r.2.ret with
    | .ok v =>
      if v = 0 then
        match call r.1 c (.close fd) with
        | .done s' => .done s' []
        | .abort => .abort
        | .more => .more
      else
        match dents 65536 (r.2.data.take v.toNat) with
        | none => .more
        | some ns =>
          match visitNames f c path ns r.1 with
          | .done s' o => (visitLoop f c path fd k s').after o
          | x => x
    | .err _ => visitLoop f c path fd k r.1
    | _ => .abort

/-- `visit_children`, `/repo/src/lib_fs_utils.rs` 239-300. -/
def visit {α : Type} (f : State → Str → Bool → Run α) (c : Nat) (path : Str) (rounds : Nat) (s : State) : Run α :=
  let r := step s c (.openP path 0#32 0#32)
  match r.2.ret with
  | .ok fd => visitLoop f c path fd rounds r.1
  | _ => .abort

/-- A line of `tree`: how far it is indented, and the path. -/
structure Line where
  depth : Nat
  path : Str
  deriving DecidableEq

/-- The bytes of a line, `/repo/src/tools/fs_utils.rs` 46-51. -/
def Line.text (l : Line) : Str :=
  (List.replicate l.depth [124, 32, 32, 32]).flatten ++ [124, 45, 45, 45] ++ l.path ++ [10]

/-- `lind_tree`, `/repo/src/tools/fs_utils.rs` 29-62.  The second argument bounds the recursion and the rounds of each loop. -/
def tree (c : Nat) : Nat → State → Str → Nat → Run Line
  | 0, _, _, _ => .more
  | k + 1, s, path, m =>
    let st := (step s c (.stat path)).2
    match st.ret, st.stat with
    | .ok _, some x =>
      if modeIsDir x.mode then
        visit (fun s p d => if d then (tree c k s p (m + 1)).after [⟨m, p⟩] else .done s [⟨m, p⟩]) c path k s
      else .done s []
    | .panic, _ => .abort
    | _, _ => .done s []

/-- An item of `ls`: the path, and whether it is followed by a slash. -/
structure Item where
  path : Str
  dir : Bool
  deriving DecidableEq

/-- The bytes of an item, `/repo/src/tools/fs_utils.rs` 73-77. -/
def Item.text (x : Item) : Str := x.path ++ (if x.dir then [47, 32] else [32])

/-- `lind_ls`, `/repo/src/tools/fs_utils.rs` 64-86, without the line feed at the end. -/
def ls (c : Nat) (k : Nat) (s : State) (path : Str) : Run Item :=
  let st := (step s c (.stat path)).2
  match st.ret, st.stat with
  | .ok _, some x =>
    if modeIsDir x.mode then visit (fun s p d => .done s [⟨p, d⟩]) c path k s
    else .done s [⟨path, false⟩]
  | .panic, _ => .abort
  | _, _ => .done s []

end Verif.FsShow
