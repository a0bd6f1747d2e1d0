import Verif.FsTools

/-!
# Model of the command line of `lind_fs_utils`

`/repo/src/tools/fs_utils.rs` 122-251: which command a line of words is, and the three commands that are a loop of calls over their arguments.
The other commands are modelled elsewhere (`cp`, `update`: `HostCopy`; `ls`, `tree`: `FsShow`; `deltree`: `FsTools`).
Words are taken to be UTF-8.
-/

namespace Verif.FsCmd
open Verif.Path Verif.Fs Verif.Kernel Verif.FsTools

/-- What a command line asks for; `abort`: one of the `expect`s or `panic!`s on the number of arguments. -/
inductive Cmd
  | usage
  | cp (source dest : Str)
  | update (source dest : Str)
  | ls (path : Str)
  | tree (path : Str)
  | format
  | deltree (path : Str)
  | rm (paths : List Str)
  | mkdir (paths : List Str)
  | rmdir (paths : List Str)
  | unknown
  | abort
  deriving DecidableEq

/-- The command words, `/repo/src/tools/fs_utils.rs` 155-245. -/
def wHelp : Str := [104, 101, 108, 112]
/-- `usage` -/
def wUsage : Str := [117, 115, 97, 103, 101]
/-- `cp` -/
def wCp : Str := [99, 112]
/-- `update` -/
def wUpdate : Str := [117, 112, 100, 97, 116, 101]
/-- `ls` -/
def wLs : Str := [108, 115]
/-- `tree` -/
def wTree : Str := [116, 114, 101, 101]
/-- `format` -/
def wFormat : Str := [102, 111, 114, 109, 97, 116]
/-- `deltree` -/
def wDeltree : Str := [100, 101, 108, 116, 114, 101, 101]
/-- `rm` -/
def wRm : Str := [114, 109]
/-- `mkdir` -/
def wMkdir : Str := [109, 107, 100, 105, 114]
/-- `rmdir` -/
def wRmdir : Str := [114, 109, 100, 105, 114]

/-- The words after the name of the executable, `/repo/src/tools/fs_utils.rs` 146-249.  `cp`, `update`, `ls` and `deltree` count their
arguments; `help`, `tree` and `format` do not look at what is left over. -/
def parse : List Str → Cmd
  | [] => .usage
  | w :: args =>
    if w = wHelp ∨ w = wUsage then .usage
    else if w = wCp then (match args with | [a, b] => .cp a b | _ => .abort)
    else if w = wUpdate then (match args with | [a, b] => .update a b | _ => .abort)
    else if w = wLs then (match args with | [a] => .ls a | _ => .abort)
    else if w = wTree then (match args with | a :: _ => .tree a | [] => .tree [slash])
    else if w = wFormat then .format
    else if w = wDeltree then (match args with | [a] => .deltree a | _ => .abort)
    else if w = wRm then .rm args
    else if w = wMkdir then .mkdir args
    else if w = wRmdir then .rmdir args
    else .unknown

/-- A loop of calls over the arguments; no result is looked at. -/
def forEach (f : State → Str → Run) : List Str → State → Run
  | [], s => .done s
  | p :: ps, s =>
    match f s p with
    | .done s' => forEach f ps s'
    | r => r

/-- `rm`, `/repo/src/tools/fs_utils.rs` 226-230. -/
def rm (c : Nat) (ps : List Str) (s : State) : Run := forEach (fun s p => call s c (.unlink p)) ps s

/-- `mkdir`, `/repo/src/tools/fs_utils.rs` 232-236. -/
def mkdir (c : Nat) (ps : List Str) (s : State) : Run := forEach (fun s p => call s c (.mkdir p sIRWXA)) ps s

/-- One argument of `rmdir`, `/repo/src/tools/fs_utils.rs` 239-241: its permissions are opened first. -/
def rmdirOne (c : Nat) (s : State) (p : Str) : Run :=
  match call s c (.chmod p sIRWXA) with
  | .done s' => call s' c (.rmdir p)
  | r => r

/-- `rmdir`, `/repo/src/tools/fs_utils.rs` 238-243. -/
def rmdir (c : Nat) (ps : List Str) (s : State) : Run := forEach (rmdirOne c) ps s

end Verif.FsCmd
