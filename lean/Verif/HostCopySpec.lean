import Verif.HostCopy
import Verif.KernelInit
import Verif.IoProps

/-!
# Specification of the copy tools: C75

Paths are lists of names from the root.  `Walk s.fs.inodes rootIno ns i` says that the path `ns` leads to the object `i` in state `s`,
`bytes s i` is the content of a file.
-/

namespace Verif.HostCopy

open Verif.Path Verif.Fs Verif.Kernel

/-- From `s` to `s'` the tree only grew: every path leads where it led; a path of proper names that leads somewhere now did so before or is
one of `P`; a directory is still one, with the same mode; another object is as it was, with its content, unless it is one of `E`. -/
structure Grown (P : List Name → Prop) (E : Nat → Prop) (s s' : State) : Prop where
  keeps : ∀ q k, Walk s.fs.inodes rootIno q k → Walk s'.fs.inodes rootIno q k
  fresh : ∀ q k, (∀ m ∈ q, Proper m) → Walk s'.fs.inodes rootIno q k → Walk s.fs.inodes rootIno q k ∨ P q
  node : ∀ j nd, s.fs.inodes j = some nd → nd.isDir = false → ¬ E j → s'.fs.inodes j = some nd ∧ bytes s' j = bytes s j
  dir : ∀ j nd, s.fs.inodes j = some nd → nd.isDir = true →
    ∃ nd', s'.fs.inodes j = some nd' ∧ nd'.isDir = true ∧ nd'.mode = nd.mode

/-- `q` is a proper ancestor of the path `ns`. -/
def Above (q ns : List Name) : Prop := ∃ n t, ns = q ++ n :: t

/-- Nothing is in the way of the ancestors of a path: those that exist are directories, and are known to be by their mode. -/
def Clear (s : State) (ns : List Name) : Prop :=
  ∀ q, Above q ns → ∀ d, Walk s.fs.inodes rootIno q d → ∃ nd, s.fs.inodes d = some nd ∧ nd.isDir = true ∧ modeIsDir nd.mode = true

mutual
/-- The regular files under a path of the host, in the order in which they are met, each with its path and content. -/
def Host.files : Host → List (List Name × List UInt8)
  | .file content => [([], content)]
  | .dir children => children.files
  | .special => []
  | .dangling => []
/-- The regular files among the children of a directory of the host. -/
def Children.files : Children → List (List Name × List UInt8)
  | .nil => []
  | .cons n h rest => h.files.map (fun f => (n :: f.1, f.2)) ++ rest.files
end

/-- The names in a directory of the host. -/
def Children.names : Children → List Name
  | .nil => []
  | .cons n _ rest => n :: rest.names

mutual
/-- The names in every directory of the host are names, and different. -/
def Host.Ok : Host → Prop
  | .dir children => children.Ok
  | _ => True
/-- The same for the children of a directory. -/
def Children.Ok : Children → Prop
  | .nil => True
  | .cons n h rest => Good n ∧ n ∉ rest.names ∧ h.Ok ∧ rest.Ok
end

/-- Every host file of the list can be put under `P`: nothing is in the way, and nothing is there. -/
def Room (s : State) (P : List Name) (fs : List (List Name × List UInt8)) : Prop :=
  ∀ f ∈ fs, P ++ f.1 ≠ [] ∧ Clear s (P ++ f.1) ∧ ∀ i, ¬ Walk s.fs.inodes rootIno (P ++ f.1) i

/-- The files of the list are under `P`, each new, with its content; the tree grew by them and their ancestors, and nothing else changed. -/
structure Placed (P : List Name) (fs : List (List Name × List UInt8)) (s s' : State) : Prop where
  reach : Reach s'
  cages : s'.cages = s.cages
  files : ∀ f ∈ fs, ∃ i, Walk s'.fs.inodes rootIno (P ++ f.1) i ∧ IsFile s' i f.2.length ∧ bytes s' i = f.2 ∧ s.fs.inodes i = none
  clear : ∀ f ∈ fs, Clear s' (P ++ f.1)
  grown : Grown (fun q => ∃ f ∈ fs, q <+: P ++ f.1) (fun _ => False) s s'

end Verif.HostCopy
