import Verif.Base

/-!
# Model of path strings: `normpath`, `getcwd`

`/repo/src/safeposix/filesystem.rs` 435-437 (`convpath`), 589-615 (`normpath`),
`/repo/src/safeposix/syscalls/fs_calls.rs` 5571-5598 (`getcwd_syscall`), and the parts of Rust's
`std::path` they use: `Path::components`, `Path::is_relative`, `PathBuf::push`, `PathBuf::pop`
(Unix flavour).

A path string is a list of bytes.  `PathBuf::pop` is modelled as "cut at the last slash",
which is what it does on strings without trailing or doubled slashes; `normpath_canonical` shows that
`normpath` only ever pops such strings.
-/

namespace Verif.Path

/-- A path string or a file name, as bytes. -/
abbrev Str := List UInt8

/-- The byte `/`. -/
def slash : UInt8 := 47
/-- The name `.`. -/
def dot : Str := [46]
/-- The name `..`. -/
def dotdot : Str := [46, 46]

/-- Split at every slash (`""` gives one empty segment). -/
def segs : Str → List Str
  | [] => [[]]
  | c :: cs =>
    if c = slash then [] :: segs cs
    else match segs cs with
      | [] => [[c]]
      | s :: ss => (c :: s) :: ss

/-- `std::path::Component` (Unix: no prefix components). -/
inductive Comp
  | root | cur | parent
  | normal (name : Str)
  deriving DecidableEq, Repr

/-- `Path::is_relative`. -/
def isRelative (p : Str) : Bool := p.head? != some slash

/-- What one segment contributes to `Path::components`. -/
def segComp (s : Str) : Option Comp :=
  if s = [] then none
  else if s = dot then none
  else if s = dotdot then some .parent
  else some (.normal s)

/-- `Path::components`: a leading slash is `RootDir`; a leading `.` of a relative path is `CurDir`;
other empty and `.` segments are dropped. -/
def components (p : Str) : List Comp :=
  if isRelative p then
    match segs p with
    | [] => []
    | s :: ss => (if s = dot then [.cur] else (segComp s).toList) ++ ss.filterMap segComp
  else .root :: (segs p).filterMap segComp

/-- `PathBuf::push` of a normal component. -/
def push (p : Str) (name : Str) : Str :=
  if p.getLast? = some slash then p ++ name else p ++ slash :: name

/-- `PathBuf::pop`. -/
def pop (p : Str) : Str :=
  match p.reverse.dropWhile (· != slash) with
  | [] => p
  | [_] => [slash]
  | _ :: r => r.reverse

/-- The loop body of `normpath`, `/repo/src/safeposix/filesystem.rs` 598-613. -/
def normStep (newp : Str) : Comp → Str
  | .normal f => push newp f
  | .parent => pop newp
  | .root => newp
  | .cur => newp

/-- `normpath(convpath(p), cage)`, `/repo/src/safeposix/filesystem.rs` 589-615. -/
def normpath (cwd p : Str) : Str :=
  (components p).foldl normStep (if isRelative p then cwd else [slash])

/-- `getcwd_syscall`, `/repo/src/safeposix/syscalls/fs_calls.rs` 5571-5598.  `mem` is the memory
from the buffer address on (`interface::fill` copies the string to its start). -/
def getcwd (cwd mem : Str) (bufsize : Nat) : Str × Ret :=
  if bufsize = 0 then (mem, .err .EINVAL)
  else
    let bytes := cwd ++ [0]
    if bufsize < bytes.length then (mem, .err .ERANGE)
    else (bytes ++ mem.drop bytes.length, .ok 0)

end Verif.Path
