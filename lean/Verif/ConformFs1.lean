import Verif.Conform

/-!
# The tests of `/repo/src/tests/fs_tests.rs` on the model, part 1 of 4

Transcribed by a script.  `v k` is what call number `k` gave (counted from 0), `r v k` the number it returned.  `socketpair` is two
calls of `socket` here; after `exec` the calls the test makes through the old process are made by the new one.
-/

namespace Verif.Conform
open Verif.Fs Verif.Kernel Verif.Path Verif.Misc

/-- `ut_lind_fs_simple`, `/repo/src/tests/fs_tests.rs` 15-37. -/
def t_simple : List Line :=
  [⟨1, fun _ => .op (.access [47] 0#32), fun v => ((r v 0) == (0 : Int))⟩,
   ⟨1, fun _ => .op (.access [47] 5#32), fun v => ((r v 1) == (0 : Int))⟩,
   ⟨1, fun _ => .op (.stat [47]), fun v => ((r v 2) == (0 : Int)) && (((v 2).field .nlink) == (5 : Int)) && (((v 2).field .size) == (0 : Int))⟩,
   ⟨1, fun _ => .op (.exit 0), fun v => ((r v 3) == (0 : Int))⟩]

example : passes t_simple = true := by decide +kernel

/-- `rdwrtest`, `/repo/src/tests/fs_tests.rs` 63-90. -/
def t_rdwrtest : List Line :=
  [⟨1, fun _ => .op (.openP [47, 102, 111, 111, 98, 97, 114] 578#32 511#32), fun v => decide ((r v 0) >= (0 : Int))⟩,
   ⟨1, fun v => .op (.write (r v 0) [104, 101, 108, 108, 111, 32, 116, 104, 101, 114, 101, 33]), fun v => ((r v 1) == (12 : Int))⟩,
   ⟨1, fun v => .op (.lseek (r v 0) 0 0), fun v => ((r v 2) == (0 : Int))⟩,
   ⟨1, fun v => .op (.read (r v 0) 5), fun v => ((r v 3) == (5 : Int)) && ((over (v 3).data ([0, 0, 0, 0, 0])) == ([104, 101, 108, 108, 111] : List UInt8))⟩,
   ⟨1, fun v => .op (.write (r v 0) [32, 119, 111, 114, 108, 100]), fun v => ((r v 4) == (6 : Int))⟩,
   ⟨1, fun v => .op (.lseek (r v 0) 0 0), fun v => ((r v 5) == (0 : Int))⟩,
   ⟨1, fun v => .op (.read (r v 0) 12), fun v => ((r v 6) == (12 : Int)) && ((over (v 6).data ([0, 0, 0, 0, 0, 0, 0, 0, 0, 0, 0, 0])) == ([104, 101, 108, 108, 111, 32, 119, 111, 114, 108, 100, 33] : List UInt8))⟩,
   ⟨1, fun _ => .op (.exit 0), fun v => ((r v 7) == (0 : Int))⟩]

example : passes t_rdwrtest = true := by decide +kernel

/-- `prdwrtest`, `/repo/src/tests/fs_tests.rs` 93-117. -/
def t_prdwrtest : List Line :=
  [⟨1, fun _ => .op (.openP [47, 102, 111, 111, 98, 97, 114, 50] 578#32 511#32), fun v => decide ((r v 0) >= (0 : Int))⟩,
   ⟨1, fun v => .op (.pwrite (r v 0) [104, 101, 108, 108, 111, 32, 116, 104, 101, 114, 101, 33] 0), fun v => ((r v 1) == (12 : Int))⟩,
   ⟨1, fun v => .op (.pread (r v 0) 5 0), fun v => ((r v 2) == (5 : Int)) && ((over (v 2).data ([0, 0, 0, 0, 0])) == ([104, 101, 108, 108, 111] : List UInt8))⟩,
   ⟨1, fun v => .op (.pwrite (r v 0) [32, 119, 111, 114, 108, 100] 5), fun v => ((r v 3) == (6 : Int))⟩,
   ⟨1, fun v => .op (.pread (r v 0) 12 0), fun v => ((r v 4) == (12 : Int)) && ((over (v 4).data ([0, 0, 0, 0, 0, 0, 0, 0, 0, 0, 0, 0])) == ([104, 101, 108, 108, 111, 32, 119, 111, 114, 108, 100, 33] : List UInt8))⟩,
   ⟨1, fun _ => .op (.exit 0), fun v => ((r v 5) == (0 : Int))⟩]

example : passes t_prdwrtest = true := by decide +kernel

/-- `chardevtest`, `/repo/src/tests/fs_tests.rs` 120-166. -/
def t_chardevtest : List Line :=
  [⟨1, fun _ => .op (.openP [47, 100, 101, 118, 47, 122, 101, 114, 111] 2#32 511#32), fun v => decide ((r v 0) >= (0 : Int))⟩,
   ⟨1, fun v => .op (.pwrite (r v 0) [76, 111, 114, 101, 109, 32, 105, 112, 115, 117, 109, 32, 100, 111, 108, 111, 114, 32, 115, 105, 116, 32, 97, 109, 101, 116, 44, 32, 99, 111, 110, 115, 101, 99, 116, 101, 116, 117, 114, 32, 97, 100, 105, 112, 105, 115, 99, 105, 110, 103, 32, 101, 108, 105, 116] 0), fun v => ((r v 1) == (55 : Int))⟩,
   ⟨1, fun v => .op (.pread (r v 0) 1000 0), fun v => ((r v 2) == (1000 : Int)) && ((over (v 2).data (z 1000)) == ([0, 0, 0, 0, 0, 0, 0, 0, 0, 0, 0, 0, 0, 0, 0, 0, 0, 0, 0, 0, 0, 0, 0, 0, 0, 0, 0, 0, 0, 0, 0, 0, 0, 0, 0, 0, 0, 0, 0, 0, 0, 0, 0, 0, 0, 0, 0, 0, 0, 0, 0, 0, 0, 0, 0, 0, 0, 0, 0, 0, 0, 0, 0, 0, 0, 0, 0, 0, 0, 0, 0, 0, 0, 0, 0, 0, 0, 0, 0, 0, 0, 0, 0, 0, 0, 0, 0, 0, 0, 0, 0, 0, 0, 0, 0, 0, 0, 0, 0, 0, 0, 0, 0, 0, 0, 0, 0, 0, 0, 0, 0, 0, 0, 0, 0, 0, 0, 0, 0, 0, 0, 0, 0, 0, 0, 0, 0, 0, 0, 0, 0, 0, 0, 0, 0, 0, 0, 0, 0, 0, 0, 0, 0, 0, 0, 0, 0, 0, 0, 0, 0, 0, 0, 0, 0, 0, 0, 0, 0, 0, 0, 0, 0, 0, 0, 0, 0, 0, 0, 0, 0, 0, 0, 0, 0, 0, 0, 0, 0, 0, 0, 0, 0, 0, 0, 0, 0, 0, 0, 0, 0, 0, 0, 0, 0, 0, 0, 0, 0, 0, 0, 0, 0, 0, 0, 0, 0, 0, 0, 0, 0, 0, 0, 0, 0, 0, 0, 0, 0, 0, 0, 0, 0, 0, 0, 0, 0, 0, 0, 0, 0, 0, 0, 0, 0, 0, 0, 0, 0, 0, 0, 0, 0, 0, 0, 0, 0, 0, 0, 0, 0, 0, 0, 0, 0, 0, 0, 0, 0, 0, 0, 0, 0, 0, 0, 0, 0, 0, 0, 0, 0, 0, 0, 0, 0, 0, 0, 0, 0, 0, 0, 0, 0, 0, 0, 0, 0, 0, 0, 0, 0, 0, 0, 0, 0, 0, 0, 0, 0, 0, 0, 0, 0, 0, 0, 0, 0, 0, 0, 0, 0, 0, 0, 0, 0, 0, 0, 0, 0, 0, 0, 0, 0, 0, 0, 0, 0, 0, 0, 0, 0, 0, 0, 0, 0, 0, 0, 0, 0, 0, 0, 0, 0, 0, 0, 0, 0, 0, 0, 0, 0, 0, 0, 0, 0, 0, 0, 0, 0, 0, 0, 0, 0, 0, 0, 0, 0, 0, 0, 0, 0, 0, 0, 0, 0, 0, 0, 0, 0, 0, 0, 0, 0, 0, 0, 0, 0, 0, 0, 0, 0, 0, 0, 0, 0, 0, 0, 0, 0, 0, 0, 0, 0, 0, 0, 0, 0, 0, 0, 0, 0, 0, 0, 0, 0, 0, 0, 0, 0, 0, 0, 0, 0, 0, 0, 0, 0, 0, 0, 0, 0, 0, 0, 0, 0, 0, 0, 0, 0, 0, 0, 0, 0, 0, 0, 0, 0, 0, 0, 0, 0, 0, 0, 0, 0, 0, 0, 0, 0, 0, 0, 0, 0, 0, 0, 0, 0, 0, 0, 0, 0, 0, 0, 0, 0, 0, 0, 0, 0, 0, 0, 0, 0, 0, 0, 0, 0, 0, 0, 0, 0, 0, 0, 0, 0, 0, 0, 0, 0, 0, 0, 0, 0, 0, 0, 0, 0, 0, 0, 0, 0, 0, 0, 0, 0, 0, 0, 0, 0, 0, 0, 0, 0, 0, 0, 0, 0, 0, 0, 0, 0, 0, 0, 0, 0, 0, 0, 0, 0, 0, 0, 0, 0, 0, 0, 0, 0, 0, 0, 0, 0, 0, 0, 0, 0, 0, 0, 0, 0, 0, 0, 0, 0, 0, 0, 0, 0, 0, 0, 0, 0, 0, 0, 0, 0, 0, 0, 0, 0, 0, 0, 0, 0, 0, 0, 0, 0, 0, 0, 0, 0, 0, 0, 0, 0, 0, 0, 0, 0, 0, 0, 0, 0, 0, 0, 0, 0, 0, 0, 0, 0, 0, 0, 0, 0, 0, 0, 0, 0, 0, 0, 0, 0, 0, 0, 0, 0, 0, 0, 0, 0, 0, 0, 0, 0, 0, 0, 0, 0, 0, 0, 0, 0, 0, 0, 0, 0, 0, 0, 0, 0, 0, 0, 0, 0, 0, 0, 0, 0, 0, 0, 0, 0, 0, 0, 0, 0, 0, 0, 0, 0, 0, 0, 0, 0, 0, 0, 0, 0, 0, 0, 0, 0, 0, 0, 0, 0, 0, 0, 0, 0, 0, 0, 0, 0, 0, 0, 0, 0, 0, 0, 0, 0, 0, 0, 0, 0, 0, 0, 0, 0, 0, 0, 0, 0, 0, 0, 0, 0, 0, 0, 0, 0, 0, 0, 0, 0, 0, 0, 0, 0, 0, 0, 0, 0, 0, 0, 0, 0, 0, 0, 0, 0, 0, 0, 0, 0, 0, 0, 0, 0, 0, 0, 0, 0, 0, 0, 0, 0, 0, 0, 0, 0, 0, 0, 0, 0, 0, 0, 0, 0, 0, 0, 0, 0, 0, 0, 0, 0, 0, 0, 0, 0, 0, 0, 0, 0, 0, 0, 0, 0, 0, 0, 0, 0, 0, 0, 0, 0, 0, 0, 0, 0, 0, 0, 0, 0, 0, 0, 0, 0, 0, 0, 0, 0, 0, 0, 0, 0, 0, 0, 0, 0, 0, 0, 0, 0, 0, 0, 0, 0, 0, 0, 0, 0, 0, 0, 0, 0, 0, 0, 0, 0, 0, 0, 0, 0, 0, 0, 0, 0, 0, 0, 0, 0, 0, 0, 0, 0, 0, 0, 0, 0, 0, 0, 0, 0, 0, 0, 0, 0, 0, 0, 0, 0, 0, 0, 0, 0, 0, 0, 0, 0, 0, 0, 0, 0, 0, 0, 0, 0, 0, 0, 0, 0, 0, 0, 0, 0, 0, 0, 0, 0, 0, 0, 0, 0, 0, 0, 0, 0, 0, 0, 0, 0, 0, 0, 0, 0, 0, 0, 0, 0, 0, 0, 0, 0, 0, 0, 0, 0, 0, 0, 0, 0, 0, 0, 0, 0, 0, 0, 0, 0, 0, 0, 0, 0, 0, 0, 0, 0, 0, 0, 0, 0, 0, 0, 0, 0, 0, 0, 0, 0, 0, 0, 0, 0, 0, 0, 0, 0, 0, 0, 0, 0, 0, 0, 0, 0, 0, 0, 0, 0, 0, 0, 0, 0, 0, 0, 0, 0, 0, 0, 0, 0, 0, 0, 0, 0, 0] : List UInt8))⟩,
   ⟨1, fun _ => .op (.chdir [100, 101, 118]), fun v => ((r v 3) == (0 : Int))⟩,
   ⟨1, fun v => .op (.close (r v 0)), fun v => ((r v 4) == (0 : Int))⟩,
   ⟨1, fun _ => .op (.openP [46, 47, 117, 114, 97, 110, 100, 111, 109] 2#32 511#32), fun v => decide ((r v 5) >= (0 : Int))⟩,
   ⟨1, fun v => .op (.read (r v 5) 1000), fun v => ((r v 6) == (1000 : Int))⟩,
   ⟨1, fun v => .op (.close (r v 5)), fun v => ((r v 7) == (0 : Int))⟩,
   ⟨1, fun _ => .op (.exit 0), fun v => ((r v 8) == (0 : Int))⟩]

example : passes t_chardevtest = true := by decide +kernel

/-- `ut_lind_fs_broken_close`, `/repo/src/tests/fs_tests.rs` 169-205. -/
def t_broken_close : List Line :=
  [⟨1, fun _ => .op (.openP [47, 98, 114, 111, 107, 101, 110, 95, 99, 108, 111, 115, 101, 95, 102, 105, 108, 101] 194#32 511#32), fun _ => true⟩,
   ⟨1, fun v => .op (.write (r v 0) [72, 101, 108, 108, 111, 32, 84, 104, 101, 114, 101, 33]), fun v => ((r v 1) == (12 : Int))⟩,
   ⟨1, fun v => .op (.close (r v 0)), fun v => ((r v 2) == (0 : Int))⟩,
   ⟨1, fun _ => .op (.openP [47, 98, 114, 111, 107, 101, 110, 95, 99, 108, 111, 115, 101, 95, 102, 105, 108, 101] 2#32 511#32), fun _ => true⟩,
   ⟨1, fun v => .op (.close (r v 3)), fun v => ((r v 4) == (0 : Int))⟩,
   ⟨1, fun _ => .op (.socket false false), fun _ => true⟩,
   ⟨1, fun _ => .op (.openP [47, 98, 114, 111, 107, 101, 110, 95, 99, 108, 111, 115, 101, 95, 102, 105, 108, 101] 2#32 511#32), fun _ => true⟩,
   ⟨1, fun v => .op (.close (r v 6)), fun v => ((r v 7) == (0 : Int))⟩,
   ⟨1, fun _ => .op (.openP [47, 98, 114, 111, 107, 101, 110, 95, 99, 108, 111, 115, 101, 95, 102, 105, 108, 101] 2#32 511#32), fun _ => true⟩,
   ⟨1, fun v => .op (.close (r v 8)), fun v => ((r v 9) == (0 : Int))⟩,
   ⟨1, fun _ => .op (.exit 0), fun v => ((r v 10) == (0 : Int))⟩]

example : passes t_broken_close = true := by decide +kernel

/-- `ut_lind_fs_chmod_valid_args`, `/repo/src/tests/fs_tests.rs` 208-284. -/
def t_chmod_valid_args : List Line :=
  [⟨1, fun _ => .op (.openP [47, 99, 104, 109, 111, 100, 84, 101, 115, 116, 70, 105, 108, 101, 49] 578#32 0#32), fun _ => true⟩,
   ⟨1, fun _ => .op (.stat [47, 99, 104, 109, 111, 100, 84, 101, 115, 116, 70, 105, 108, 101, 49]), fun v => ((r v 1) == (0 : Int)) && (((v 1).field .mode) == (32768 : Int))⟩,
   ⟨1, fun _ => .op (.chmod [47, 99, 104, 109, 111, 100, 84, 101, 115, 116, 70, 105, 108, 101, 49] 448#32), fun v => ((r v 2) == (0 : Int))⟩,
   ⟨1, fun _ => .op (.stat [47, 99, 104, 109, 111, 100, 84, 101, 115, 116, 70, 105, 108, 101, 49]), fun v => ((r v 3) == (0 : Int)) && (((v 3).field .mode) == (33216 : Int))⟩,
   ⟨1, fun _ => .op (.chmod [47, 99, 104, 109, 111, 100, 84, 101, 115, 116, 70, 105, 108, 101, 49] 0#32), fun v => ((r v 4) == (0 : Int))⟩,
   ⟨1, fun _ => .op (.chmod [47, 99, 104, 109, 111, 100, 84, 101, 115, 116, 70, 105, 108, 101, 49] 56#32), fun v => ((r v 5) == (0 : Int))⟩,
   ⟨1, fun _ => .op (.stat [47, 99, 104, 109, 111, 100, 84, 101, 115, 116, 70, 105, 108, 101, 49]), fun v => ((r v 6) == (0 : Int)) && (((v 6).field .mode) == (32824 : Int))⟩,
   ⟨1, fun _ => .op (.chmod [47, 99, 104, 109, 111, 100, 84, 101, 115, 116, 70, 105, 108, 101, 49] 0#32), fun v => ((r v 7) == (0 : Int))⟩,
   ⟨1, fun _ => .op (.chmod [47, 99, 104, 109, 111, 100, 84, 101, 115, 116, 70, 105, 108, 101, 49] 7#32), fun v => ((r v 8) == (0 : Int))⟩,
   ⟨1, fun _ => .op (.stat [47, 99, 104, 109, 111, 100, 84, 101, 115, 116, 70, 105, 108, 101, 49]), fun v => ((r v 9) == (0 : Int)) && (((v 9).field .mode) == (32775 : Int))⟩,
   ⟨1, fun v => .op (.close (r v 0)), fun v => ((r v 10) == (0 : Int))⟩,
   ⟨1, fun _ => .op (.mkdir [46, 46, 47, 116, 101, 115, 116, 70, 111, 108, 100, 101, 114] 511#32), fun v => ((r v 11) == (0 : Int))⟩,
   ⟨1, fun _ => .op (.openP [46, 46, 47, 116, 101, 115, 116, 70, 111, 108, 100, 101, 114, 47, 99, 104, 109, 111, 100, 84, 101, 115, 116, 70, 105, 108, 101] 578#32 0#32), fun _ => true⟩,
   ⟨1, fun _ => .op (.stat [46, 46, 47, 116, 101, 115, 116, 70, 111, 108, 100, 101, 114, 47, 99, 104, 109, 111, 100, 84, 101, 115, 116, 70, 105, 108, 101]), fun v => ((r v 13) == (0 : Int)) && (((v 13).field .mode) == (32768 : Int))⟩,
   ⟨1, fun _ => .op (.chmod [46, 46, 47, 116, 101, 115, 116, 70, 111, 108, 100, 101, 114, 47, 99, 104, 109, 111, 100, 84, 101, 115, 116, 70, 105, 108, 101] 511#32), fun v => ((r v 14) == (0 : Int))⟩,
   ⟨1, fun _ => .op (.stat [46, 46, 47, 116, 101, 115, 116, 70, 111, 108, 100, 101, 114, 47, 99, 104, 109, 111, 100, 84, 101, 115, 116, 70, 105, 108, 101]), fun v => ((r v 15) == (0 : Int)) && (((v 15).field .mode) == (33279 : Int))⟩,
   ⟨1, fun v => .op (.close (r v 12)), fun v => ((r v 16) == (0 : Int))⟩,
   ⟨1, fun _ => .op (.exit 0), fun v => ((r v 17) == (0 : Int))⟩]

example : passes t_chmod_valid_args = true := by decide +kernel

/-- `ut_lind_fs_chmod_invalid_args`, `/repo/src/tests/fs_tests.rs` 287-321. -/
def t_chmod_invalid_args : List Line :=
  [⟨1, fun _ => .op (.chmod [47, 115, 111, 109, 101, 73, 110, 118, 97, 108, 105, 100, 80, 97, 116, 104, 47, 116, 101, 115, 116, 70, 105, 108, 101] 448#32), fun v => ((r v 0) == ((-2) : Int))⟩,
   ⟨1, fun _ => .op (.openP [47, 99, 104, 109, 111, 100, 84, 101, 115, 116, 70, 105, 108, 101, 50] 578#32 511#32), fun _ => true⟩,
   ⟨1, fun _ => .op (.stat [47, 99, 104, 109, 111, 100, 84, 101, 115, 116, 70, 105, 108, 101, 50]), fun v => ((r v 2) == (0 : Int)) && (((v 2).field .mode) == (33279 : Int))⟩,
   ⟨1, fun _ => .op (.chmod [47, 99, 104, 109, 111, 100, 84, 101, 115, 116, 70, 105, 108, 101, 50] 4095#32), fun v => ((r v 3) == ((-22) : Int))⟩,
   ⟨1, fun v => .op (.close (r v 1)), fun v => ((r v 4) == (0 : Int))⟩,
   ⟨1, fun _ => .op (.exit 0), fun v => ((r v 5) == (0 : Int))⟩]

example : passes t_chmod_invalid_args = true := by decide +kernel

/-- `ut_lind_fs_fchmod`, `/repo/src/tests/fs_tests.rs` 324-367. -/
def t_fchmod : List Line :=
  [⟨1, fun _ => .op (.openP [47, 102, 99, 104, 109, 111, 100, 84, 101, 115, 116, 70, 105, 108, 101, 49] 578#32 0#32), fun _ => true⟩,
   ⟨1, fun v => .op (.fstat (r v 0)), fun v => ((r v 1) == (0 : Int)) && (((v 1).field .mode) == (32768 : Int))⟩,
   ⟨1, fun v => .op (.fchmod (r v 0) 511#32), fun v => ((r v 2) == (0 : Int))⟩,
   ⟨1, fun v => .op (.fstat (r v 0)), fun v => ((r v 3) == (0 : Int)) && (((v 3).field .mode) == (33279 : Int))⟩,
   ⟨1, fun v => .op (.fchmod (r v 0) 4095#32), fun v => ((r v 4) == ((-22) : Int))⟩,
   ⟨1, fun v => .op (.close (r v 0)), fun v => ((r v 5) == (0 : Int))⟩,
   ⟨1, fun v => .op (.fchmod (r v 0) 511#32), fun v => ((r v 6) == ((-9) : Int))⟩,
   ⟨1, fun _ => .op (.exit 0), fun v => ((r v 7) == (0 : Int))⟩]

example : passes t_fchmod = true := by decide +kernel

/-- `ut_lind_fs_mmap_zerolen`, `/repo/src/tests/fs_tests.rs` 370-394. -/
def t_mmap_zerolen : List Line :=
  [⟨1, fun _ => .op (.openP [47, 109, 109, 97, 112, 84, 101, 115, 116, 70, 105, 108, 101, 49] 578#32 511#32), fun _ => true⟩,
   ⟨1, fun v => .op (.write (r v 0) [84, 101, 115, 116, 32, 116, 101, 120, 116]), fun v => ((r v 1) == (9 : Int))⟩,
   ⟨1, fun v => .mmap 0#64 0 3#32 1#32 (r v 0) 0, fun v => ((r v 2) == ((-22) : Int))⟩,
   ⟨1, fun _ => .op (.exit 0), fun v => ((r v 3) == (0 : Int))⟩]

example : passes t_mmap_zerolen = true := by decide +kernel

/-- `ut_lind_fs_mmap_invalid_flags_none`, `/repo/src/tests/fs_tests.rs` 397-423. -/
def t_mmap_invalid_flags_none : List Line :=
  [⟨1, fun _ => .op (.openP [47, 109, 109, 97, 112, 84, 101, 115, 116, 70, 105, 108, 101, 49] 578#32 511#32), fun _ => true⟩,
   ⟨1, fun v => .op (.write (r v 0) [84, 101, 115, 116, 32, 116, 101, 120, 116]), fun v => ((r v 1) == (9 : Int))⟩,
   ⟨1, fun v => .mmap 0#64 5 3#32 0#32 (r v 0) 0, fun v => ((r v 2) == ((-22) : Int))⟩,
   ⟨1, fun _ => .op (.exit 0), fun v => ((r v 3) == (0 : Int))⟩]

example : passes t_mmap_invalid_flags_none = true := by decide +kernel

/-- `ut_lind_fs_mmap_invalid_flags_both`, `/repo/src/tests/fs_tests.rs` 426-459. -/
def t_mmap_invalid_flags_both : List Line :=
  [⟨1, fun _ => .op (.openP [47, 109, 109, 97, 112, 84, 101, 115, 116, 70, 105, 108, 101, 49] 578#32 511#32), fun _ => true⟩,
   ⟨1, fun v => .op (.write (r v 0) [84, 101, 115, 116, 32, 116, 101, 120, 116]), fun v => ((r v 1) == (9 : Int))⟩,
   ⟨1, fun v => .mmap 0#64 5 3#32 3#32 (r v 0) 0, fun v => ((r v 2) == ((-22) : Int))⟩,
   ⟨1, fun _ => .op (.exit 0), fun v => ((r v 3) == (0 : Int))⟩]

example : passes t_mmap_invalid_flags_both = true := by decide +kernel

/-- `ut_lind_fs_mmap_no_read`, `/repo/src/tests/fs_tests.rs` 462-487. -/
def t_mmap_no_read : List Line :=
  [⟨1, fun _ => .op (.openP [47, 109, 109, 97, 112, 84, 101, 115, 116, 70, 105, 108, 101, 49] 577#32 511#32), fun _ => true⟩,
   ⟨1, fun v => .op (.write (r v 0) [84, 101, 115, 116, 32, 116, 101, 120, 116]), fun v => ((r v 1) == (9 : Int))⟩,
   ⟨1, fun v => .mmap 0#64 5 3#32 1#32 (r v 0) 0, fun v => ((r v 2) == ((-13) : Int))⟩,
   ⟨1, fun _ => .op (.exit 0), fun v => ((r v 3) == (0 : Int))⟩]

example : passes t_mmap_no_read = true := by decide +kernel

/-- `ut_lind_fs_mmap_no_write`, `/repo/src/tests/fs_tests.rs` 490-532. -/
def t_mmap_no_write : List Line :=
  [⟨1, fun _ => .op (.openP [47, 109, 109, 97, 112, 84, 101, 115, 116, 70, 105, 108, 101, 49] 578#32 511#32), fun _ => true⟩,
   ⟨1, fun v => .op (.write (r v 0) [84, 101, 115, 116, 32, 116, 101, 120, 116]), fun v => ((r v 1) == (9 : Int))⟩,
   ⟨1, fun _ => .op (.openP [47, 109, 109, 97, 112, 84, 101, 115, 116, 70, 105, 108, 101, 49] 0#32 0#32), fun _ => true⟩,
   ⟨1, fun v => .mmap 0#64 5 3#32 1#32 (r v 2) 0, fun v => ((r v 3) == ((-13) : Int))⟩,
   ⟨1, fun _ => .op (.exit 0), fun v => ((r v 4) == (0 : Int))⟩]

example : passes t_mmap_no_write = true := by decide +kernel

/-- `ut_lind_fs_mmap_invalid_offset_len`, `/repo/src/tests/fs_tests.rs` 535-569. -/
def t_mmap_invalid_offset_len : List Line :=
  [⟨1, fun _ => .op (.openP [47, 109, 109, 97, 112, 84, 101, 115, 116, 70, 105, 108, 101, 49] 578#32 511#32), fun _ => true⟩,
   ⟨1, fun v => .op (.write (r v 0) [84, 101, 115, 116, 32, 116, 101, 120, 116]), fun v => ((r v 1) == (9 : Int))⟩,
   ⟨1, fun v => .mmap 0#64 5 3#32 1#32 (r v 0) (-10), fun v => ((r v 2) == ((-6) : Int))⟩,
   ⟨1, fun v => .mmap 0#64 5 3#32 1#32 (r v 0) 25, fun v => ((r v 3) == ((-6) : Int))⟩,
   ⟨1, fun _ => .op (.exit 0), fun v => ((r v 4) == (0 : Int))⟩]

example : passes t_mmap_invalid_offset_len = true := by decide +kernel

/-- `ut_lind_fs_mmap_chardev`, `/repo/src/tests/fs_tests.rs` 572-594. -/
def t_mmap_chardev : List Line :=
  [⟨1, fun _ => .op (.openP [47, 100, 101, 118, 47, 122, 101, 114, 111] 2#32 511#32), fun _ => true⟩,
   ⟨1, fun v => .op (.write (r v 0) [84, 101, 115, 116, 32, 116, 101, 120, 116]), fun v => ((r v 1) == (9 : Int))⟩,
   ⟨1, fun v => .mmap 0#64 5 3#32 1#32 (r v 0) 0, fun v => ((r v 2) == ((-95) : Int))⟩,
   ⟨1, fun _ => .op (.exit 0), fun v => ((r v 3) == (0 : Int))⟩]

example : passes t_mmap_chardev = true := by decide +kernel

/-- `ut_lind_fs_mmap_unsupported_file`, `/repo/src/tests/fs_tests.rs` 597-619. -/
def t_mmap_unsupported_file : List Line :=
  [⟨1, fun _ => .op (.mkdir [47, 116, 101, 115, 116, 100, 105, 114] 511#32), fun v => ((r v 0) == (0 : Int))⟩,
   ⟨1, fun _ => .op (.openP [47, 116, 101, 115, 116, 100, 105, 114] 2#32 511#32), fun _ => true⟩,
   ⟨1, fun v => .mmap 0#64 5 3#32 2#32 (r v 1) 0, fun v => ((r v 2) == ((-13) : Int))⟩,
   ⟨1, fun _ => .op (.exit 0), fun v => ((r v 3) == (0 : Int))⟩]

example : passes t_mmap_unsupported_file = true := by decide +kernel

/-- `ut_lind_fs_mmap_invalid_fildes`, `/repo/src/tests/fs_tests.rs` 622-648. -/
def t_mmap_invalid_fildes : List Line :=
  [⟨1, fun _ => .op (.openP [47, 109, 109, 97, 112, 84, 101, 115, 116, 70, 105, 108, 101, 49] 578#32 511#32), fun _ => true⟩,
   ⟨1, fun v => .op (.close (r v 0)), fun v => ((r v 1) == (0 : Int))⟩,
   ⟨1, fun v => .mmap 0#64 5 3#32 1#32 (r v 0) 0, fun v => ((r v 2) == ((-9) : Int))⟩,
   ⟨1, fun _ => .op (.exit 0), fun v => ((r v 3) == (0 : Int))⟩]

example : passes t_mmap_invalid_fildes = true := by decide +kernel

/-- `ut_lind_fs_munmap_zerolen`, `/repo/src/tests/fs_tests.rs` 651-675. -/
def t_munmap_zerolen : List Line :=
  [⟨1, fun _ => .op (.openP [47, 109, 109, 97, 112, 84, 101, 115, 116, 70, 105, 108, 101, 49] 578#32 511#32), fun _ => true⟩,
   ⟨1, fun v => .op (.write (r v 0) [84, 101, 115, 116, 32, 116, 101, 120, 116]), fun v => ((r v 1) == (9 : Int))⟩,
   ⟨1, fun _ => .munmap 0#64 0, fun v => ((r v 2) == ((-22) : Int))⟩,
   ⟨1, fun _ => .op (.exit 0), fun v => ((r v 3) == (0 : Int))⟩]

example : passes t_munmap_zerolen = true := by decide +kernel

/-- `ut_lind_fs_chdir_valid_args`, `/repo/src/tests/fs_tests.rs` 678-709. -/
def t_chdir_valid_args : List Line :=
  [⟨1, fun _ => .op (.mkdir [47, 115, 117, 98, 100, 105, 114, 49] 511#32), fun v => ((r v 0) == (0 : Int))⟩,
   ⟨1, fun _ => .op (.mkdir [47, 115, 117, 98, 100, 105, 114, 49, 47, 115, 117, 98, 100, 105, 114, 50] 511#32), fun v => ((r v 1) == (0 : Int))⟩,
   ⟨1, fun _ => .op (.chdir [115, 117, 98, 100, 105, 114, 49]), fun v => ((r v 2) == (0 : Int))⟩,
   ⟨1, fun _ => .getcwd ([0, 0, 0, 0, 0, 0, 0, 0, 0]) 9, fun v => ((r v 3) == (0 : Int)) && ((v 3).data == ([47, 115, 117, 98, 100, 105, 114, 49, 0] : List UInt8))⟩,
   ⟨1, fun _ => .op (.chdir [47, 115, 117, 98, 100, 105, 114, 49, 47, 115, 117, 98, 100, 105, 114, 50]), fun v => ((r v 4) == (0 : Int))⟩,
   ⟨1, fun _ => .op (.chdir [46, 46]), fun v => ((r v 5) == (0 : Int))⟩,
   ⟨1, fun _ => .getcwd ([0, 0, 0, 0, 0, 0, 0, 0, 0]) 9, fun v => ((r v 6) == (0 : Int)) && ((v 6).data == ([47, 115, 117, 98, 100, 105, 114, 49, 0] : List UInt8))⟩,
   ⟨1, fun _ => .op (.exit 0), fun v => ((r v 7) == (0 : Int))⟩]

example : passes t_chdir_valid_args = true := by decide +kernel

/-- `ut_lind_fs_chdir_removeddir`, `/repo/src/tests/fs_tests.rs` 712-730. -/
def t_chdir_removeddir : List Line :=
  [⟨1, fun _ => .op (.mkdir [47, 115, 117, 98, 100, 105, 114, 49] 511#32), fun v => ((r v 0) == (0 : Int))⟩,
   ⟨1, fun _ => .op (.mkdir [47, 115, 117, 98, 100, 105, 114, 50] 511#32), fun v => ((r v 1) == (0 : Int))⟩,
   ⟨1, fun _ => .op (.chdir [115, 117, 98, 100, 105, 114, 49]), fun v => ((r v 2) == (0 : Int))⟩,
   ⟨1, fun _ => .op (.rmdir [47, 115, 117, 98, 100, 105, 114, 49]), fun v => ((r v 3) == (0 : Int))⟩,
   ⟨1, fun _ => .op (.chdir [47, 115, 117, 98, 100, 105, 114, 50]), fun v => ((r v 4) == (0 : Int))⟩,
   ⟨1, fun _ => .op (.chdir [115, 117, 98, 100, 105, 114, 49]), fun v => ((r v 5) == ((-2) : Int))⟩,
   ⟨1, fun _ => .op (.exit 0), fun v => ((r v 6) == (0 : Int))⟩]

example : passes t_chdir_removeddir = true := by decide +kernel

/-- `ut_lind_fs_chdir_invalid_args`, `/repo/src/tests/fs_tests.rs` 733-759. -/
def t_chdir_invalid_args : List Line :=
  [⟨1, fun _ => .op (.openP [47, 84, 101, 115, 116, 70, 105, 108, 101, 49] 578#32 0#32), fun _ => true⟩,
   ⟨1, fun _ => .op (.chdir [47, 84, 101, 115, 116, 70, 105, 108, 101, 49]), fun v => ((r v 1) == ((-20) : Int))⟩,
   ⟨1, fun _ => .op (.chdir [47, 97, 114, 98, 105, 116, 114, 97, 114, 121, 112, 97, 116, 104]), fun v => ((r v 2) == ((-2) : Int))⟩,
   ⟨1, fun _ => .op (.exit 0), fun v => ((r v 3) == (0 : Int))⟩]

example : passes t_chdir_invalid_args = true := by decide +kernel

/-- `ut_lind_fs_fchdir_valid_args`, `/repo/src/tests/fs_tests.rs` 762-798. -/
def t_fchdir_valid_args : List Line :=
  [⟨1, fun _ => .op (.mkdir [47, 115, 117, 98, 100, 105, 114, 49] 511#32), fun v => ((r v 0) == (0 : Int))⟩,
   ⟨1, fun _ => .op (.mkdir [47, 115, 117, 98, 100, 105, 114, 49, 47, 115, 117, 98, 100, 105, 114, 50] 511#32), fun v => ((r v 1) == (0 : Int))⟩,
   ⟨1, fun _ => .op (.openP [47, 115, 117, 98, 100, 105, 114, 49] 2#32 511#32), fun _ => true⟩,
   ⟨1, fun _ => .op (.openP [47, 115, 117, 98, 100, 105, 114, 49, 47, 115, 117, 98, 100, 105, 114, 50] 2#32 511#32), fun _ => true⟩,
   ⟨1, fun _ => .op (.access [115, 117, 98, 100, 105, 114, 49] 0#32), fun v => ((r v 4) == (0 : Int))⟩,
   ⟨1, fun v => .op (.fchdir (r v 2)), fun v => ((r v 5) == (0 : Int))⟩,
   ⟨1, fun _ => .getcwd ([0, 0, 0, 0, 0, 0, 0, 0, 0]) 9, fun v => ((r v 6) == (0 : Int)) && ((v 6).data == ([47, 115, 117, 98, 100, 105, 114, 49, 0] : List UInt8))⟩,
   ⟨1, fun _ => .op (.access [115, 117, 98, 100, 105, 114, 50] 0#32), fun v => ((r v 7) == (0 : Int))⟩,
   ⟨1, fun v => .op (.fchdir (r v 3)), fun v => ((r v 8) == (0 : Int))⟩,
   ⟨1, fun _ => .getcwd ([0, 0, 0, 0, 0, 0, 0, 0, 0, 0, 0, 0, 0, 0, 0, 0, 0]) 17, fun v => ((r v 9) == (0 : Int)) && ((v 9).data == ([47, 115, 117, 98, 100, 105, 114, 49, 47, 115, 117, 98, 100, 105, 114, 50, 0] : List UInt8))⟩,
   ⟨1, fun _ => .op (.exit 0), fun v => ((r v 10) == (0 : Int))⟩]

example : passes t_fchdir_valid_args = true := by decide +kernel

/-- `ut_lind_fs_fchdir_invalid_args`, `/repo/src/tests/fs_tests.rs` 801-826. -/
def t_fchdir_invalid_args : List Line :=
  [⟨1, fun _ => .op (.openP [47, 84, 101, 115, 116, 70, 105, 108, 101, 49] 578#32 0#32), fun _ => true⟩,
   ⟨1, fun v => .op (.fchdir (r v 0)), fun v => ((r v 1) == ((-20) : Int))⟩,
   ⟨1, fun v => .op (.close (r v 0)), fun v => ((r v 2) == (0 : Int))⟩,
   ⟨1, fun v => .op (.fchdir (r v 0)), fun v => ((r v 3) == ((-9) : Int))⟩,
   ⟨1, fun _ => .op (.exit 0), fun v => ((r v 4) == (0 : Int))⟩]

example : passes t_fchdir_invalid_args = true := by decide +kernel

/-- `ut_lind_fs_dir_mode`, `/repo/src/tests/fs_tests.rs` 829-851. -/
def t_dir_mode : List Line :=
  [⟨1, fun _ => .op (.mkdir [47, 115, 117, 98, 100, 105, 114, 68, 105, 114, 77, 111, 100, 101, 49] 511#32), fun v => ((r v 0) == (0 : Int))⟩,
   ⟨1, fun _ => .op (.stat [47, 115, 117, 98, 100, 105, 114, 68, 105, 114, 77, 111, 100, 101, 49]), fun v => ((r v 1) == (0 : Int)) && (((v 1).field .mode) == (16895 : Int))⟩,
   ⟨1, fun _ => .op (.mkdir [47, 115, 117, 98, 100, 105, 114, 68, 105, 114, 77, 111, 100, 101, 50] 0#32), fun v => ((r v 2) == (0 : Int))⟩,
   ⟨1, fun _ => .op (.stat [47, 115, 117, 98, 100, 105, 114, 68, 105, 114, 77, 111, 100, 101, 50]), fun v => ((r v 3) == (0 : Int)) && (((v 3).field .mode) == (16384 : Int))⟩,
   ⟨1, fun _ => .op (.exit 0), fun v => ((r v 4) == (0 : Int))⟩]

example : passes t_dir_mode = true := by decide +kernel

/-- `ut_lind_fs_dir_multiple`, `/repo/src/tests/fs_tests.rs` 854-891. -/
def t_dir_multiple : List Line :=
  [⟨1, fun _ => .op (.mkdir [47, 115, 117, 98, 100, 105, 114, 77, 117, 108, 116, 105, 112, 108, 101, 49] 511#32), fun v => ((r v 0) == (0 : Int))⟩,
   ⟨1, fun _ => .op (.mkdir [47, 115, 117, 98, 100, 105, 114, 77, 117, 108, 116, 105, 112, 108, 101, 49, 47, 115, 117, 98, 100, 105, 114, 77, 117, 108, 116, 105, 112, 108, 101, 50] 511#32), fun v => ((r v 1) == (0 : Int))⟩,
   ⟨1, fun _ => .op (.mkdir [47, 115, 117, 98, 100, 105, 114, 77, 117, 108, 116, 105, 112, 108, 101, 49, 47, 115, 117, 98, 100, 105, 114, 77, 117, 108, 116, 105, 112, 108, 101, 50, 47, 115, 117, 98, 100, 105, 114, 77, 117, 108, 116, 105, 112, 108, 101, 51] 0#32), fun v => ((r v 2) == (0 : Int))⟩,
   ⟨1, fun _ => .op (.stat [47, 115, 117, 98, 100, 105, 114, 77, 117, 108, 116, 105, 112, 108, 101, 49, 47, 115, 117, 98, 100, 105, 114, 77, 117, 108, 116, 105, 112, 108, 101, 50]), fun v => ((r v 3) == (0 : Int)) && (((v 3).field .mode) == (16895 : Int))⟩,
   ⟨1, fun _ => .op (.stat [47, 115, 117, 98, 100, 105, 114, 77, 117, 108, 116, 105, 112, 108, 101, 49, 47, 115, 117, 98, 100, 105, 114, 77, 117, 108, 116, 105, 112, 108, 101, 50, 47, 115, 117, 98, 100, 105, 114, 77, 117, 108, 116, 105, 112, 108, 101, 51]), fun v => ((r v 4) == (0 : Int)) && (((v 4).field .mode) == (16384 : Int))⟩,
   ⟨1, fun _ => .op (.exit 0), fun v => ((r v 5) == (0 : Int))⟩]

example : passes t_dir_multiple = true := by decide +kernel

/-- `ut_lind_fs_dup`, `/repo/src/tests/fs_tests.rs` 894-952. -/
def t_dup : List Line :=
  [⟨1, fun _ => .op (.openP [47, 100, 117, 112, 102, 105, 108, 101] 578#32 511#32), fun v => decide ((r v 0) >= (0 : Int))⟩,
   ⟨1, fun v => .op (.write (r v 0) [49, 50]), fun v => ((r v 1) == (2 : Int))⟩,
   ⟨1, fun v => .op (.lseek (r v 0) 0 0), fun v => ((r v 2) == (0 : Int))⟩,
   ⟨1, fun v => .op (.read (r v 0) 2), fun v => ((r v 3) == (2 : Int)) && ((over (v 3).data ([0, 0])) == ([49, 50] : List UInt8))⟩,
   ⟨1, fun v => .op (.dup (r v 0)), fun v => ((r v 0) != ((r v 4) : Int))⟩,
   ⟨1, fun v => .op (.dup (r v 0)), fun v => (((r v 0) != ((r v 4) : Int)) && ((r v 0) != ((r v 5) : Int)))⟩,
   ⟨1, fun v => .op (.close (r v 5)), fun v => ((r v 6) == (0 : Int))⟩,
   ⟨1, fun v => .op (.lseek (r v 0) 0 2), fun v => ((r v 7) == (2 : Int))⟩,
   ⟨1, fun v => .op (.lseek (r v 4) 0 2), fun v => ((r v 8) == (2 : Int))⟩,
   ⟨1, fun v => .op (.write (r v 0) [51, 52]), fun v => ((r v 9) == (2 : Int))⟩,
   ⟨1, fun v => .op (.lseek (r v 0) 0 0), fun _ => true⟩,
   ⟨1, fun v => .op (.lseek (r v 4) 0 0), fun v => ((r v 10) == ((r v 11) : Int))⟩,
   ⟨1, fun v => .op (.read (r v 0) 4), fun v => ((r v 12) == (4 : Int)) && ((over (v 12).data ([0, 0, 0, 0])) == ([49, 50, 51, 52] : List UInt8))⟩,
   ⟨1, fun v => .op (.close (r v 0)), fun v => ((r v 13) == (0 : Int))⟩,
   ⟨1, fun v => .op (.lseek (r v 4) 0 2), fun v => ((r v 14) == (4 : Int))⟩,
   ⟨1, fun v => .op (.write (r v 4) [53, 54, 55, 56]), fun v => ((r v 15) == (4 : Int))⟩,
   ⟨1, fun v => .op (.lseek (r v 4) 0 0), fun v => ((r v 16) == (0 : Int))⟩,
   ⟨1, fun v => .op (.read (r v 4) 8), fun v => ((r v 17) == (8 : Int))⟩,
   ⟨1, fun v => .op (.close (r v 4)), fun v => ((r v 18) == (0 : Int)) && ((over (v 17).data ([0, 0, 0, 0, 0, 0, 0, 0])) == ([49, 50, 51, 52, 53, 54, 55, 56] : List UInt8))⟩,
   ⟨1, fun _ => .op (.exit 0), fun v => ((r v 19) == (0 : Int))⟩]

example : passes t_dup = true := by decide +kernel

/-- `ut_lind_fs_dup_invalid_fd`, `/repo/src/tests/fs_tests.rs` 954-971. -/
def t_dup_invalid_fd : List Line :=
  [⟨1, fun _ => .op (.openP [47, 116, 101, 115, 116, 102, 105, 108, 101] 65#32 511#32), fun v => ((r v 0) != ((-2) : Int))⟩,
   ⟨1, fun v => .op (.close (r v 0)), fun v => ((r v 1) == (0 : Int))⟩,
   ⟨1, fun v => .op (.dup (r v 0)), fun v => ((r v 2) == ((-9) : Int))⟩,
   ⟨1, fun _ => .op (.exit 0), fun v => ((r v 3) == (0 : Int))⟩]

example : passes t_dup_invalid_fd = true := by decide +kernel

/-- `ut_lind_fs_dup2`, `/repo/src/tests/fs_tests.rs` 995-1044. -/
def t_dup2 : List Line :=
  [⟨1, fun _ => .op (.openP [47, 100, 117, 112, 50, 102, 105, 108, 101] 578#32 511#32), fun _ => true⟩,
   ⟨1, fun v => .op (.write (r v 0) [49, 50]), fun v => ((r v 1) == (2 : Int))⟩,
   ⟨1, fun v => .op (.dup2 (r v 0) ((r v 0) + 1)), fun _ => true⟩,
   ⟨1, fun v => .op (.dup2 (r v 0) ((r v 0) + 1)), fun _ => true⟩,
   ⟨1, fun v => .op (.lseek (r v 0) 0 2), fun _ => true⟩,
   ⟨1, fun v => .op (.lseek (r v 3) 0 2), fun v => ((r v 4) == ((r v 5) : Int))⟩,
   ⟨1, fun v => .op (.write (r v 0) [51, 52]), fun v => ((r v 6) == (2 : Int))⟩,
   ⟨1, fun v => .op (.lseek (r v 0) 0 0), fun _ => true⟩,
   ⟨1, fun v => .op (.lseek (r v 3) 0 0), fun v => ((r v 7) == ((r v 8) : Int))⟩,
   ⟨1, fun v => .op (.lseek (r v 3) 0 0), fun v => ((r v 9) == (0 : Int))⟩,
   ⟨1, fun v => .op (.read (r v 0) 4), fun v => ((r v 10) == (4 : Int)) && ((over (v 10).data ([0, 0, 0, 0])) == ([49, 50, 51, 52] : List UInt8))⟩,
   ⟨1, fun v => .op (.close (r v 0)), fun v => ((r v 11) == (0 : Int))⟩,
   ⟨1, fun v => .op (.lseek (r v 3) 0 2), fun v => ((r v 12) == (4 : Int))⟩,
   ⟨1, fun v => .op (.write (r v 3) [53, 54, 55, 56]), fun v => ((r v 13) == (4 : Int))⟩,
   ⟨1, fun v => .op (.lseek (r v 3) 0 0), fun v => ((r v 14) == (0 : Int))⟩,
   ⟨1, fun v => .op (.read (r v 3) 8), fun v => ((r v 15) == (8 : Int)) && ((over (v 15).data ([0, 0, 0, 0, 0, 0, 0, 0])) == ([49, 50, 51, 52, 53, 54, 55, 56] : List UInt8))⟩,
   ⟨1, fun v => .op (.close (r v 3)), fun v => ((r v 16) == (0 : Int))⟩,
   ⟨1, fun _ => .op (.exit 0), fun v => ((r v 17) == (0 : Int))⟩]

example : passes t_dup2 = true := by decide +kernel

/-- `ut_lind_fs_dup2_invalid_fd`, `/repo/src/tests/fs_tests.rs` 1047-1064. -/
def t_dup2_invalid_fd : List Line :=
  [⟨1, fun _ => .op (.openP [47, 116, 101, 115, 116, 102, 105, 108, 101] 65#32 511#32), fun v => ((r v 0) != ((-2) : Int))⟩,
   ⟨1, fun v => .op (.close (r v 0)), fun v => ((r v 1) == (0 : Int))⟩,
   ⟨1, fun v => .op (.dup2 (r v 0) 5), fun v => ((r v 2) == ((-9) : Int))⟩,
   ⟨1, fun _ => .op (.exit 0), fun v => ((r v 3) == (0 : Int))⟩]

example : passes t_dup2_invalid_fd = true := by decide +kernel

/-- `ut_lind_fs_dup2_with_fork`, `/repo/src/tests/fs_tests.rs` 1088-1136. -/
def t_dup2_with_fork : List Line :=
  [⟨1, fun _ => .op (.openP [47, 100, 117, 112, 50, 102, 105, 108, 101, 95, 119, 105, 116, 104, 95, 102, 111, 114, 107, 49] 66#32 511#32), fun _ => true⟩,
   ⟨1, fun _ => .op (.openP [47, 100, 117, 112, 50, 102, 105, 108, 101, 95, 119, 105, 116, 104, 95, 102, 111, 114, 107, 50] 66#32 511#32), fun v => decide ((r v 0) >= (0 : Int)) && decide ((r v 1) >= (0 : Int))⟩,
   ⟨1, fun v => .op (.write (r v 0) [112, 97, 114, 101, 110, 116, 32, 100, 97, 116, 97]), fun v => ((r v 2) == (11 : Int))⟩,
   ⟨1, fun _ => .op (.fork 2), fun v => ((r v 3) == (0 : Int))⟩,
   ⟨2, fun v => .op (.dup2 (r v 0) (r v 1)), fun v => decide ((r v 4) >= (0 : Int))⟩,
   ⟨2, fun v => .op (.write (r v 1) [32, 99, 104, 105, 108, 100, 32, 100, 97, 116, 97]), fun v => ((r v 5) == (11 : Int))⟩,
   ⟨2, fun v => .op (.close (r v 1)), fun v => ((r v 6) == (0 : Int))⟩,
   ⟨2, fun _ => .op (.exit 0), fun v => ((r v 7) == (0 : Int))⟩,
   ⟨1, fun v => .op (.lseek (r v 0) 0 0), fun v => ((r v 8) == (0 : Int))⟩,
   ⟨1, fun v => .op (.read (r v 0) 22), fun v => ((r v 9) == (22 : Int)) && ((over (v 9).data ([0, 0, 0, 0, 0, 0, 0, 0, 0, 0, 0, 0, 0, 0, 0, 0, 0, 0, 0, 0, 0, 0])) == ([112, 97, 114, 101, 110, 116, 32, 100, 97, 116, 97, 32, 99, 104, 105, 108, 100, 32, 100, 97, 116, 97] : List UInt8))⟩,
   ⟨1, fun v => .op (.close (r v 0)), fun v => ((r v 10) == (0 : Int))⟩,
   ⟨1, fun _ => .op (.exit 0), fun v => ((r v 11) == (0 : Int))⟩]

example : passes t_dup2_with_fork = true := by decide +kernel

/-- `ut_lind_fs_fcntl_valid_args`, `/repo/src/tests/fs_tests.rs` 1139-1171. -/
def t_fcntl_valid_args : List Line :=
  [⟨1, fun _ => .op (.socket false false), fun _ => true⟩,
   ⟨1, fun _ => .op (.openP [47, 102, 99, 110, 116, 108, 95, 102, 105, 108, 101, 95, 49] 192#32 511#32), fun _ => true⟩,
   ⟨1, fun v => .op (.fcntl (r v 0) 2 524288#32), fun v => ((r v 2) == (0 : Int))⟩,
   ⟨1, fun v => .op (.fcntl (r v 0) 1 0#32), fun v => ((r v 3) == (524288 : Int))⟩,
   ⟨1, fun v => .op (.fcntl (r v 1) 4 2048#32), fun v => ((r v 4) == (0 : Int))⟩,
   ⟨1, fun v => .op (.fcntl (r v 1) 3 0#32), fun v => ((r v 5) == (2048 : Int))⟩,
   ⟨1, fun v => .op (.fcntl (r v 0) 1 4294967164#32), fun v => ((r v 6) == (524288 : Int))⟩,
   ⟨1, fun v => .op (.fcntl (r v 1) 3 4294965298#32), fun v => ((r v 7) == (2048 : Int))⟩,
   ⟨1, fun v => .op (.close (r v 1)), fun v => ((r v 8) == (0 : Int))⟩,
   ⟨1, fun v => .op (.close (r v 0)), fun v => ((r v 9) == (0 : Int))⟩,
   ⟨1, fun _ => .op (.exit 0), fun v => ((r v 10) == (0 : Int))⟩]

example : passes t_fcntl_valid_args = true := by decide +kernel

/-- `ut_lind_fs_fcntl_invalid_args`, `/repo/src/tests/fs_tests.rs` 1174-1204. -/
def t_fcntl_invalid_args : List Line :=
  [⟨1, fun _ => .op (.openP [47, 102, 99, 110, 116, 108, 95, 102, 105, 108, 101, 95, 50] 192#32 511#32), fun _ => true⟩,
   ⟨1, fun v => .op (.fcntl (r v 0) 29 0#32), fun v => ((r v 1) == ((-22) : Int))⟩,
   ⟨1, fun v => .op (.fcntl (r v 0) 2 4294967291#32), fun v => ((r v 2) == ((-22) : Int))⟩,
   ⟨1, fun v => .op (.fcntl (r v 0) 4 4294967291#32), fun v => ((r v 3) == ((-22) : Int))⟩,
   ⟨1, fun v => .op (.fcntl (r v 0) 0 4294967291#32), fun v => ((r v 4) == ((-22) : Int))⟩,
   ⟨1, fun v => .op (.close (r v 0)), fun v => ((r v 5) == (0 : Int))⟩,
   ⟨1, fun _ => .op (.exit 0), fun v => ((r v 6) == (0 : Int))⟩]

example : passes t_fcntl_invalid_args = true := by decide +kernel

/-- `ut_lind_fs_fcntl_dup`, `/repo/src/tests/fs_tests.rs` 1207-1240. -/
def t_fcntl_dup : List Line :=
  [⟨1, fun _ => .op (.openP [47, 102, 99, 110, 116, 108, 95, 102, 105, 108, 101, 95, 52] 194#32 511#32), fun _ => true⟩,
   ⟨1, fun v => .op (.fcntl (r v 0) 0 100#32), fun v => (decide ((r v 1) >= (100 : Int)) && ((r v 1) != ((r v 0) : Int)))⟩,
   ⟨1, fun v => .op (.write (r v 0) [84, 101, 115, 116, 32, 116, 101, 120, 116]), fun v => ((r v 2) == (9 : Int))⟩,
   ⟨1, fun v => .op (.read (r v 1) 9), fun v => ((r v 3) == (9 : Int)) && ((over (v 3).data ([0, 0, 0, 0, 0, 0, 0, 0, 0])) == ([84, 101, 115, 116, 32, 116, 101, 120, 116] : List UInt8))⟩,
   ⟨1, fun v => .op (.fcntl (r v 0) 3 0#32), fun _ => true⟩,
   ⟨1, fun v => .op (.fcntl (r v 1) 3 0#32), fun v => ((r v 4) == ((r v 5) : Int))⟩,
   ⟨1, fun v => .op (.close (r v 0)), fun v => ((r v 6) == (0 : Int))⟩,
   ⟨1, fun v => .op (.close (r v 1)), fun v => ((r v 7) == (0 : Int))⟩,
   ⟨1, fun _ => .op (.exit 0), fun v => ((r v 8) == (0 : Int))⟩]

example : passes t_fcntl_dup = true := by decide +kernel

/-- `ut_lind_fs_ioctl_valid_args`, `/repo/src/tests/fs_tests.rs` 1243-1281. -/
def t_ioctl_valid_args : List Line :=
  [⟨1, fun _ => .op (.socket false false), fun _ => true⟩,
   ⟨1, fun v => .ioctl (r v 0) 21537#32 (some 0), fun v => ((r v 1) == (0 : Int))⟩,
   ⟨1, fun v => .op (.fcntl (r v 0) 3 0#32), fun v => ((((r v 2)).toNat &&& 2048 : Nat) == (0 : Int))⟩,
   ⟨1, fun v => .ioctl (r v 0) 21537#32 (some 1), fun v => ((r v 3) == (0 : Int))⟩,
   ⟨1, fun v => .op (.fcntl (r v 0) 3 0#32), fun v => ((((r v 4)).toNat &&& 2048 : Nat) == (2048 : Int))⟩,
   ⟨1, fun v => .op (.close (r v 0)), fun v => ((r v 5) == (0 : Int))⟩,
   ⟨1, fun _ => .op (.exit 0), fun v => ((r v 6) == (0 : Int))⟩]

example : passes t_ioctl_valid_args = true := by decide +kernel

/-- `ut_lind_fs_ioctl_invalid_args`, `/repo/src/tests/fs_tests.rs` 1284-1345. -/
def t_ioctl_invalid_args : List Line :=
  [⟨1, fun _ => .op (.socket false false), fun _ => true⟩,
   ⟨1, fun _ => .op (.openP [47, 105, 111, 99, 116, 108, 95, 102, 105, 108, 101] 192#32 511#32), fun _ => true⟩,
   ⟨1, fun v => .ioctl (r v 1) 21537#32 (some 0), fun v => ((r v 2) == ((-25) : Int))⟩,
   ⟨1, fun v => .ioctl (r v 1) 21537#32 (some 1), fun v => ((r v 3) == ((-25) : Int))⟩,
   ⟨1, fun v => .op (.close (r v 1)), fun v => ((r v 4) == (0 : Int))⟩,
   ⟨1, fun v => .ioctl (r v 0) 21600#32 (some 0), fun v => ((r v 5) == ((-22) : Int))⟩,
   ⟨1, fun v => .ioctl (r v 0) 21537#32 none, fun v => ((r v 6) == ((-14) : Int))⟩,
   ⟨1, fun v => .op (.close (r v 0)), fun v => ((r v 7) == (0 : Int))⟩,
   ⟨1, fun v => .op (.fcntl (r v 0) 3 0#32), fun v => ((r v 8) == ((-9) : Int))⟩,
   ⟨1, fun _ => .op (.exit 0), fun v => ((r v 9) == (0 : Int))⟩]

example : passes t_ioctl_invalid_args = true := by decide +kernel

end Verif.Conform
