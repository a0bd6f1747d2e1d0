import Verif.Kernel

/-!
# Model of the tools that walk a directory tree: `visit_children`, `lind_deltree`, `cleartmp`

`/repo/src/lib_fs_utils.rs` 239-336 and `/repo/src/safeposix/dispatcher.rs` 988-1007.  They are programs made of system calls of
one cage, so they are modelled as programs over `Kernel.step`; the path strings, the directory buffer and the descriptor are
those of the code.  Nothing else runs meanwhile.

What is printed is left out.  File names are assumed to be UTF-8 (`to_str().unwrap()`).
-/

namespace Verif.FsTools

open Verif.Path Verif.Fs Verif.Kernel

/-- How a program ends: with a state, by a panic (an assertion or a call that panics), or not within the given number of rounds. -/
inductive Run
  | done (s : State)
  | abort
  | more

/-- A call whose result is not looked at. -/
def call (s : State) (c : Nat) (op : Op) : Run :=
  if (step s c op).2.ret = .panic then .abort else .done (step s c op).1

/-- A little-endian number. -/
def unle : List UInt8 → Nat
  | [] => 0
  | b :: bs => b.toNat + 256 * unle bs

/-- The inner loop of `visit_children`, `/repo/src/lib_fs_utils.rs` 263-273: the name after the 18 bytes of a record, up to the zero;
the next record `d_reclen` bytes further on.  (A length of zero makes the code read the record for ever; `none`.) -/
def dents : Nat → List UInt8 → Option (List Str)
  | _, [] => some []
  | 0, _ :: _ => none
  | fuel + 1, buf =>
    (dents fuel (buf.drop (unle ((buf.drop 16).take 2)))).map (fun ns => (buf.drop 18).takeWhile (· ≠ 0) :: ns)

/-- `fullstatpath`, `/repo/src/lib_fs_utils.rs` 280-284. -/
def child (path name : Str) : Str :=
  if path.getLast? = some slash then path ++ name else path ++ slash :: name

/-- The visits for the names of one buffer, `/repo/src/lib_fs_utils.rs` 275-297.  A `stat` that fails leaves mode 0. -/
def visitNames (f : State → Str → Bool → Run) (c : Nat) (path : Str) : List Str → State → Run
  | [], s => .done s
  | n :: ns, s =>
    if n = dot ∨ n = dotdot then visitNames f c path ns s
    else
      let st := (step s c (.stat (child path n))).2
      if st.ret = .panic then .abort
      else
        match f s (child path n) (match st.stat with | some x => modeIsDir x.mode | none => false) with
        | .done s' => visitNames f c path ns s'
        | r => r

/-- The outer loop of `visit_children`, `/repo/src/lib_fs_utils.rs` 252-298.  An error of `getdents` is taken as a
number of bytes below zero, so the loop goes on. -/
def visitLoop (f : State → Str → Bool → Run) (c : Nat) (path : Str) (fd : Int) : Nat → State → Run
  | 0, _ => .more
  | k + 1, s =>
    let r := step s c (.getdents fd 65536)
    match r.2.ret with
    | .ok v =>
      if v = 0 then call r.1 c (.close fd)
      else
        match dents 65536 (r.2.data.take v.toNat) with
        | none => .more
        | some ns =>
          match visitNames f c path ns r.1 with
          | .done s' => visitLoop f c path fd k s'
          | x => x
    | .err _ => visitLoop f c path fd k r.1
    | _ => .abort

/-- `visit_children`, `/repo/src/lib_fs_utils.rs` 239-300: `assert!(dirfd >= 0)`. -/
def visit (f : State → Str → Bool → Run) (c : Nat) (path : Str) (rounds : Nat) (s : State) : Run :=
  let r := step s c (.openP path 0#32 0#32)
  match r.2.ret with
  | .ok fd => visitLoop f c path fd rounds r.1
  | _ => .abort

/-- `lind_deltree`, `/repo/src/lib_fs_utils.rs` 302-336.  The first argument bounds the recursion and the rounds of each loop. -/
def deltree (c : Nat) : Nat → State → Str → Run
  | 0, _, _ => .more
  | k + 1, s, path =>
    let st := (step s c (.stat path)).2
    match st.ret, st.stat with
    | .ok _, some x =>
      if modeIsDir x.mode then
        match call s c (.chmod path sIRWXA) with
        | .done s1 =>
          match visit (fun s p d => if d then deltree c k s p else call s c (.unlink p)) c path k s1 with
          | .done s2 => call s2 c (.rmdir path)
          | r => r
        | r => r
      else call s c (.unlink path)
    | .panic, _ => .abort
    | _, _ => .done s

/-- `/tmp` -/
def tmp : Str := [47, 116, 109, 112]

/-- `cleartmp`, `/repo/src/safeposix/dispatcher.rs` 988-1007; cage 0. -/
def cleartmp (init : Bool) (k : Nat) (s : State) : Run :=
  let st := (step s 0 (.stat tmp)).2
  match st.ret with
  | .ok _ => visit (fun s p d => if d then deltree 0 k s p else call s 0 (.unlink p)) 0 tmp k s
  | .panic => .abort
  | _ => if init then call s 0 (.mkdir tmp sIRWXA) else .done s

end Verif.FsTools
