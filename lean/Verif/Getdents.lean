import Verif.Base
import Verif.Path

/-!
# Model of `getdents`: selection and layout of directory records

`/repo/src/safeposix/syscalls/fs_calls.rs` 5422-5533, `/repo/src/interface/types.rs` 208-218 and
`pack_dirents` 461-487.  The directory's dictionary is given as a list in its iteration order,
which for an unchanged `DashMap` is the same in every call.

The counters are `u32` in the code; overflow (more than 4 GB of records) is not modelled.
-/

namespace Verif.Getdents
open Verif.Path

/-- `CLIPPED_DIRENT_SIZE`: 8 + 8 + 2 bytes, packed; `/repo/src/interface/types.rs` 208-218. -/
def clipped : Nat := 18

/-- `curr_size`: header, name, terminating zero, type byte, padded to a multiple of 8;
`/repo/src/safeposix/syscalls/fs_calls.rs` 5465-5481. -/
def recLen (name : Str) : Nat := (clipped + (name.length + 2) + 7) / 8 * 8

/-- One record as put in `vec`, 5493-5500. -/
structure Rec where
  ino : Nat
  off : Nat
  reclen : Nat
  /-- name, zero byte, `DT_UNKNOWN`, padding -/
  tail : List UInt8
  deriving DecidableEq, Repr

/-- The loop 5458-5502 over the entries after `skip(position)`; `b` is `bufcount`. -/
def fill (bufsize : Nat) : List (Str × Nat) → Nat → List Rec × Nat
  | [], b => ([], b)
  | (n, i) :: es, b =>
    if b + recLen n > bufsize then ([], b)
    else
      let r := fill bufsize es (b + recLen n)
      ({ ino := i, off := b + recLen n, reclen := recLen n,
         tail := n ++ [0, 0] ++ List.replicate (recLen n - (clipped + (n.length + 2))) 0 } :: r.1, r.2)

/-- Little-endian bytes of a `u64`/`u16` field. -/
def le : Nat → Nat → List UInt8
  | 0, _ => []
  | k + 1, n => UInt8.ofNat n :: le k (n / 256)

/-- The bytes one record occupies, `/repo/src/interface/types.rs` 461-487. -/
def Rec.bytes (r : Rec) : List UInt8 := le 8 r.ino ++ le 8 r.off ++ le 2 r.reclen ++ r.tail

/-- The result of a call on an open directory. -/
structure Res where
  ret : Ret
  /-- the bytes written from the start of the buffer on -/
  bytes : List UInt8
  /-- new descriptor position -/
  pos : Nat
  recs : List Rec
  deriving DecidableEq, Repr

/-- `getdents_syscall` for a directory descriptor at position `pos`, 5430-5513. -/
def getdents (ents : List (Str × Nat)) (pos bufsize : Nat) : Res :=
  if bufsize ≤ clipped then { ret := .err .EINVAL, bytes := [], pos := pos, recs := [] }
  else
    let r := fill bufsize (ents.drop pos) 0
    { ret := .ok r.2, bytes := r.1.flatMap Rec.bytes, pos := min (pos + r.1.length) ents.length,
      recs := r.1 }

end Verif.Getdents
