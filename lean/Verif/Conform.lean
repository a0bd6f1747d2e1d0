import Verif.Misc

/-!
# Running the project's own tests on the model

The files `ConformFs*.lean` are the tests of `/repo/src/tests/fs_tests.rs`, transcribed by a script, run on the kernel model.  They
prove no property: they are a check of the model against what the authors of the code saw it do.  This file says what a
transcribed test is.
-/

namespace Verif.Conform
open Verif.Fs Verif.Kernel Verif.Path Verif.Misc

/-- The calls of the tests: those of the kernel model and those of `Misc`. -/
inductive Call
  | op (o : Op)
  | creat (p : Str) (mode : BitVec 32)
  | getcwd (mem : Str) (n : Nat)
  | mmap (addr : BitVec 64) (len : Nat) (prot flags : BitVec 32) (fd off : Int)
  | munmap (addr : BitVec 64) (len : Nat)
  | ioctl (fd : Int) (request : BitVec 32) (arg : Option Int)
  | fsync (fd : Int)
  | statfs (p : Str)
  | fstatfs (fd : Int)

/-- What a test sees of a call. -/
structure Seen where
  ret : Ret := .ok 0
  data : List UInt8 := []
  stat : Option Stat := none
  pair : Nat × Nat := (0, 0)
  fsdata : Option FsData := none

def seen (o : Out) : Seen := { ret := o.ret, data := o.data, stat := o.stat, pair := o.pair }

/-- The answer of a mapping call that does not reach the host; the tests have no other. -/
def mapRet : MapOut → Ret
  | .ret r => r
  | .host _ => .blocked

/-- One call of a test. -/
def act (s : State) (c : Nat) : Call → State × Seen
  | .op o => ((step s c o).1, seen (step s c o).2)
  | .creat p m => ((creat s c p m).1, seen (creat s c p m).2)
  | .getcwd mem n =>
    match s.cages c with
    | none => (s, { ret := .panic })
    | some cg => (s, { ret := (Path.getcwd cg.cwd mem n).2, data := (Path.getcwd cg.cwd mem n).1 })
  | .mmap a l p f fd off => (s, { ret := mapRet (mmap s c a l p f fd off) })
  | .munmap a l => (s, { ret := mapRet (munmap s c a l) })
  | .ioctl fd q a => ((ioctl s c fd q a).1, { ret := (ioctl s c fd q a).2 })
  | .fsync fd => (s, { ret := (fsync s c fd true).1 })
  | .statfs p => (s, { ret := (statfs s c p).1, fsdata := (statfs s c p).2 })
  | .fstatfs fd => (s, { ret := (fstatfs s c fd).1, fsdata := (fstatfs s c fd).2 })

/-- A statement of a test: the process, the call, which may use what earlier calls returned (`v k` is what call number `k` gave),
and the assertions that follow it. -/
structure Line where
  c : Nat
  call : (Nat → Seen) → Call
  ok : (Nat → Seen) → Bool

/-- Run a test from a state; `n` is the number of the next call. -/
def runs (s : State) (v : Nat → Seen) (n : Nat) : List Line → Bool
  | [] => true
  | l :: ls =>
    match act s l.c (l.call v) with
    | (s', o) => (l.ok fun k => if k = n then o else v k) && runs s' (fun k => if k = n then o else v k) (n + 1) ls

/-- A test passes on the model.  `setup::lock_and_init` of `/repo/src/tests/mod.rs` 37-99 leaves the file system of `init`, with the
two processes 0 and 1. -/
def passes (t : List Line) : Bool := runs init (fun _ => {}) 0 t

/-- The number a call returned.  A panic or a call that never returns is a number no call returns. -/
def r (v : Nat → Seen) (k : Nat) : Int := ((v k).ret.toInt?).getD (-1000000)

/-- A buffer after a call that stored `d` at its start. -/
def over (d old : List UInt8) : List UInt8 := d ++ old.drop d.length

/-- A buffer of zeros. -/
def z (n : Nat) : List UInt8 := List.replicate n 0

inductive Fld
  | mode | nlink | size | rdev

/-- A field of the structure the call filled in. -/
def Seen.field (o : Seen) : Fld → Int
  | .mode => match o.stat with | some t => t.mode.toNat | none => -1
  | .nlink => match o.stat with | some t => t.nlink | none => -1
  | .size => match o.stat with | some t => t.size | none => -1
  | .rdev => match o.stat with | some t => t.rdev.toNat | none => -1

/-- `f_type` and `f_bsize`. -/
def Seen.fsd (o : Seen) (k : Nat) : Int :=
  match o.fsdata with
  | some d => if k = 0 then d.ftype else d.bsize
  | none => -1

end Verif.Conform
