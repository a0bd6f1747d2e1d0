import Verif.FsTools

/-!
# Model of the tools that copy files of the host into the file system: `cp_dir_into_lind`, `update_dir_into_lind`

`/repo/src/lib_fs_utils.rs` 12-237.  They are programs made of system calls of one cage, so they are modelled as programs over
`Kernel.step`; the host's files are a value.  Nothing else runs meanwhile, on the host neither.

What is printed is left out.  File names are assumed to be UTF-8 (`to_str().unwrap()`), and reading a host file is assumed to give its
whole content.
-/

namespace Verif.HostCopy

open Verif.Path Verif.Fs Verif.Kernel Verif.FsTools

mutual
/-- What is at a path of the host, symbolic links followed (`exists`, `is_file`, `is_dir`, `read_dir` follow them): a regular file,
a directory with its children in the order `read_dir` gives them, another kind of file, or a symbolic link to nothing. -/
inductive Host
  | file (content : List UInt8)
  | dir (children : Children)
  | special
  | dangling
/-- The children of a directory of the host. -/
inductive Children
  | nil
  | cons (name : Name) (h : Host) (rest : Children)
end

/-- `LINUX_MAX_RW_COUNT`, `/repo/src/lib_fs_utils.rs` 12. -/
def maxRw : Nat := 0x7FFFF000

/-- How the copy of one file ends: copied; left alone, because it is the same or not a regular file; given up with a message; or by a
panic of the whole program. -/
inductive Res
  | copied (s : State)
  | kept (s : State)
  | stopped (s : State)
  | abort

/-- The ancestors of a path with these names, `/repo/src/lib_fs_utils.rs` 167-170: `lindtruepath.parent().unwrap().components()`, each pushed
on the one before, the root first. -/
def ancestors : Str → List Name → List Str
  | _, [] => []
  | cur, n :: ns => cur :: ancestors (push cur n) ns

/-- How the loop over the ancestors ends. -/
inductive Dirs
  | ok (s : State)
  | stop (s : State)
  | abort

/-- The loop over the ancestors, `/repo/src/lib_fs_utils.rs` 169-202. -/
def makeDirs (c : Nat) (create : Bool) : List Str → State → Dirs
  | [], s => .ok s
  | q :: qs, s =>
    let st := (step s c (.stat q)).2
    match st.ret, st.stat with
    | .ok _, some x => if modeIsDir x.mode then makeDirs c create qs s else .stop s
    | .err e, _ =>
      if e ≠ .ENOENT then .stop s
      else if create then
        let r := step s c (.mkdir q sIRWXA)
        match r.2.ret with
        | .ok v => if v ≠ 0 then .stop r.1 else makeDirs c create qs r.1
        | .err _ => .stop r.1
        | _ => .abort
      else .stop s
    | _, _ => .abort

/-- `chunks`, `/repo/src/lib_fs_utils.rs` 222: pieces of `n` bytes, the last one perhaps shorter; there are at most as many as bytes. -/
def chunks (n : Nat) : Nat → List UInt8 → List (List UInt8)
  | 0, _ => []
  | _ + 1, [] => []
  | k + 1, b :: bs => (b :: bs).take n :: chunks n k ((b :: bs).drop n)

/-- The writes, `/repo/src/lib_fs_utils.rs` 215-226.  An error is added to the count as a huge number, so that `assert_eq` panics;
`none`. -/
def writeAll (c : Nat) (fd : Int) : List (List UInt8) → State → Option State
  | [], s => some s
  | b :: bs, s =>
    let r := step s c (.write fd b)
    match r.2.ret with
    | .ok v => if v = (b.length : Int) then writeAll c fd bs r.1 else none
    | _ => none

/-- `cp_into_lind` after the loop, `/repo/src/lib_fs_utils.rs` 204-236.  The descriptor must not be negative, everything must have been
written and the close must answer 0, or else the program panics.  (`fstat` is called only to print the inode.) -/
def putFile (c : Nat) (path : Str) (content : List UInt8) (s : State) : Res :=
  let r := step s c (.openP path (oCREAT ||| oTRUNC ||| 1#32) sIRWXA)
  match r.2.ret with
  | .ok fd =>
    match writeAll c fd (chunks maxRw content.length content) r.1 with
    | none => .abort
    | some s2 =>
      if (step s2 c (.fstat fd)).2.ret = .panic then .abort
      else
        let r3 := step s2 c (.close fd)
        if r3.2.ret = .ok 0 then .copied r3.1 else .abort
  | _ => .abort

/-- `cp_into_lind` for a regular file of the host, `/repo/src/lib_fs_utils.rs` 148-237.  A path that is the root has no parent: the
program panics.  (A cage that is not in the table has nothing to copy into; the code has a reference to the cage.) -/
def cpInto (c : Nat) (create : Bool) (path : Str) (content : List UInt8) (s : State) : Res :=
  match s.cages c with
  | none => .abort
  | some cg =>
    let lindtruepath := normpath cg.cwd path
    if names lindtruepath = [] then .abort
    else
      match makeDirs c create (ancestors [slash] (names lindtruepath)) s with
      | .ok s1 => putFile c lindtruepath content s1
      | .stop s1 => .stopped s1
      | .abort => .abort

/-- The comparison, `/repo/src/lib_fs_utils.rs` 81-94; the results of the three calls are not looked at.  What is not read stays zero. -/
def compareFiles (c : Nat) (path : Str) (content : List UInt8) (s : State) : Option (State × Bool) :=
  let r := step s c (.openP path oCREAT sIRWXA)
  let fd : Int := match r.2.ret with | .ok v => v | .err e => -(e.code : Int) | _ => 0
  let r2 := step r.1 c (.read fd content.length)
  let r3 := step r2.1 c (.close fd)
  if r.2.ret = .panic ∨ r2.2.ret = .panic ∨ r3.2.ret = .panic then none
  else some (r3.1, content == r2.2.data ++ List.replicate (content.length - r2.2.data.length) 0)

/-- `is_reg`, `/repo/src/safeposix/syscalls/fs_constants.rs` 158-160. -/
def modeIsReg (m : BitVec 32) : Bool := m &&& sFileType == sIFREG

/-- `update_into_lind` for a regular file of the host, `/repo/src/lib_fs_utils.rs` 46-112. -/
def updateInto (c : Nat) (path : Str) (content : List UInt8) (s : State) : Res :=
  let st := (step s c (.stat path)).2
  if st.ret = .panic then .abort
  else
    let found : Option Stat := match st.ret with | .ok _ => st.stat | _ => none
    match found with
    | some x =>
      if !modeIsReg x.mode then .kept s
      else
        match (if content.length = x.size then compareFiles c path content s else some (s, false)) with
        | none => .abort
        | some (s1, true) => .kept s1
        | some (s1, false) =>
          match call s1 c (.unlink path) with
          | .done s2 => cpInto c true path content s2
          | _ => .abort
    | none =>
      match (if content.length = 0 then compareFiles c path content s else some (s, false)) with
      | none => .abort
      | some (s1, true) => .kept s1
      | some (s1, false) => cpInto c true path content s1

/-- The copy of one file as a step of a longer program: only a panic ends it. -/
def Res.run : Res → Run
  | .copied s => .done s
  | .kept s => .done s
  | .stopped s => .done s
  | .abort => .abort

mutual
/-- `cp_dir_into_lind`, `/repo/src/lib_fs_utils.rs` 114-146. -/
def cpTree (c : Nat) (create : Bool) : Host → Str → State → Run
  | .file content, path, s => (cpInto c create path content s).run
  | .dir children, path, s => cpChildren c create children path s
  | .special, _, s => .done s
  | .dangling, _, s => .done s
/-- The loop of `cp_dir_into_lind`, `/repo/src/lib_fs_utils.rs` 133-145. -/
def cpChildren (c : Nat) (create : Bool) : Children → Str → State → Run
  | .nil, _, s => .done s
  | .cons n h rest, path, s =>
    match cpTree c create h (child path n) s with
    | .done s1 => cpChildren c create rest path s1
    | r => r
end

mutual
/-- `update_dir_into_lind`, `/repo/src/lib_fs_utils.rs` 16-44: what is not a regular file is read as a directory, `read_dir().unwrap()`. -/
def updateTree (c : Nat) : Host → Str → State → Run
  | .file content, path, s => (updateInto c path content s).run
  | .dir children, path, s => updateChildren c children path s
  | .special, _, _ => .abort
  | .dangling, _, s => .done s
/-- The loop of `update_dir_into_lind`, `/repo/src/lib_fs_utils.rs` 32-42. -/
def updateChildren (c : Nat) : Children → Str → State → Run
  | .nil, _, s => .done s
  | .cons n h rest, path, s =>
    match updateTree c h (child path n) s with
    | .done s1 => updateChildren c rest path s1
    | r => r
end

end Verif.HostCopy
