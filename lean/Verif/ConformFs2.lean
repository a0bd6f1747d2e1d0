import Verif.Conform

/-!
# The tests of `/repo/src/tests/fs_tests.rs` on the model, part 2 of 4

Transcribed by a script.  `v k` is what call number `k` gave (counted from 0), `r v k` the number it returned.  `socketpair` is two
calls of `socket` here; after `exec` the calls the test makes through the old process are made by the new one.
-/

namespace Verif.Conform
open Verif.Fs Verif.Kernel Verif.Path Verif.Misc

/-- `ut_lind_fs_fdflags`, `/repo/src/tests/fs_tests.rs` 1348-1392. -/
def t_fdflags : List Line :=
  [⟨1, fun _ => .creat [47, 102, 100, 70, 108, 97, 103, 115, 70, 105, 108, 101] 511#32, fun _ => true⟩,
   ⟨1, fun v => .op (.close (r v 0)), fun v => ((r v 1) == (0 : Int))⟩,
   ⟨1, fun _ => .op (.openP [47, 102, 100, 70, 108, 97, 103, 115, 70, 105, 108, 101] 0#32 511#32), fun _ => true⟩,
   ⟨1, fun v => .op (.lseek (r v 2) 0 0), fun v => ((r v 3) == (0 : Int))⟩,
   ⟨1, fun v => .op (.write (r v 2) [72, 101, 108, 108, 111, 33, 32, 84, 104, 105, 115, 32, 115, 104, 111, 117, 108, 100, 32, 110, 111, 116, 32, 119, 114, 105, 116, 101]), fun v => ((r v 4) == ((-9) : Int))⟩,
   ⟨1, fun v => .op (.lseek (r v 2) 0 0), fun v => ((r v 5) == (0 : Int))⟩,
   ⟨1, fun v => .op (.read (r v 2) 100), fun v => ((r v 6) == (0 : Int))⟩,
   ⟨1, fun v => .op (.close (r v 2)), fun v => ((r v 7) == (0 : Int))⟩,
   ⟨1, fun _ => .op (.openP [47, 102, 100, 70, 108, 97, 103, 115, 70, 105, 108, 101] 1#32 511#32), fun _ => true⟩,
   ⟨1, fun v => .op (.lseek (r v 8) 0 0), fun v => ((r v 9) == (0 : Int))⟩,
   ⟨1, fun v => .op (.read (r v 8) 100), fun v => ((r v 10) == ((-9) : Int))⟩,
   ⟨1, fun v => .op (.lseek (r v 8) 0 0), fun v => ((r v 11) == (0 : Int))⟩,
   ⟨1, fun v => .op (.write (r v 8) [72, 101, 108, 108, 111, 33, 32, 84, 104, 105, 115, 32, 115, 104, 111, 117, 108, 100, 32, 119, 114, 105, 116, 101]), fun v => ((r v 12) == (24 : Int))⟩,
   ⟨1, fun v => .op (.close (r v 8)), fun v => ((r v 13) == (0 : Int))⟩,
   ⟨1, fun _ => .op (.exit 0), fun v => ((r v 14) == (0 : Int))⟩]

example : passes t_fdflags = true := by decide +kernel

/-- `ut_lind_fs_link_empty_path`, `/repo/src/tests/fs_tests.rs` 1395-1414. -/
def t_link_empty_path : List Line :=
  [⟨1, fun _ => .op (.link [] [47, 110, 101, 119, 112, 97, 116, 104]), fun v => ((r v 0) == ((-2) : Int))⟩,
   ⟨1, fun _ => .op (.link [47, 111, 108, 100, 112, 97, 116, 104] []), fun v => ((r v 1) == ((-2) : Int))⟩,
   ⟨1, fun _ => .op (.exit 0), fun v => ((r v 2) == (0 : Int))⟩]

example : passes t_link_empty_path = true := by decide +kernel

/-- `ut_lind_fs_link_nonexistent_oldpath`, `/repo/src/tests/fs_tests.rs` 1417-1432. -/
def t_link_nonexistent_oldpath : List Line :=
  [⟨1, fun _ => .op (.link [47, 110, 111, 110, 101, 120, 105, 115, 116, 101, 110, 116] [47, 110, 101, 119, 112, 97, 116, 104]), fun v => ((r v 0) == ((-2) : Int))⟩,
   ⟨1, fun _ => .op (.exit 0), fun v => ((r v 1) == (0 : Int))⟩]

example : passes t_link_nonexistent_oldpath = true := by decide +kernel

/-- `ut_lind_fs_link_existing_newpath`, `/repo/src/tests/fs_tests.rs` 1435-1456. -/
def t_link_existing_newpath : List Line :=
  [⟨1, fun _ => .op (.openP [47, 111, 108, 100, 102, 105, 108, 101] 193#32 511#32), fun _ => true⟩,
   ⟨1, fun _ => .op (.openP [47, 110, 101, 119, 102, 105, 108, 101] 193#32 511#32), fun _ => true⟩,
   ⟨1, fun _ => .op (.link [47, 111, 108, 100, 102, 105, 108, 101] [47, 110, 101, 119, 102, 105, 108, 101]), fun v => ((r v 2) == ((-17) : Int))⟩,
   ⟨1, fun _ => .op (.exit 0), fun v => ((r v 3) == (0 : Int))⟩]

example : passes t_link_existing_newpath = true := by decide +kernel

/-- `ut_lind_fs_link_directory`, `/repo/src/tests/fs_tests.rs` 1459-1477. -/
def t_link_directory : List Line :=
  [⟨1, fun _ => .op (.mkdir [47, 111, 108, 100, 100, 105, 114] 511#32), fun v => ((r v 0) == (0 : Int))⟩,
   ⟨1, fun _ => .op (.link [47, 111, 108, 100, 100, 105, 114] [47, 110, 101, 119, 112, 97, 116, 104]), fun v => ((r v 1) == ((-1) : Int))⟩,
   ⟨1, fun _ => .op (.exit 0), fun v => ((r v 2) == (0 : Int))⟩]

example : passes t_link_directory = true := by decide +kernel

/-- `ut_lind_fs_unlink_empty_path`, `/repo/src/tests/fs_tests.rs` 1480-1493. -/
def t_unlink_empty_path : List Line :=
  [⟨1, fun _ => .op (.unlink []), fun v => ((r v 0) == ((-2) : Int))⟩,
   ⟨1, fun _ => .op (.exit 0), fun v => ((r v 1) == (0 : Int))⟩]

example : passes t_unlink_empty_path = true := by decide +kernel

/-- `ut_lind_fs_unlink_nonexistent_file`, `/repo/src/tests/fs_tests.rs` 1496-1509. -/
def t_unlink_nonexistent_file : List Line :=
  [⟨1, fun _ => .op (.unlink [47, 110, 111, 110, 101, 120, 105, 115, 116, 101, 110, 116]), fun v => ((r v 0) == ((-2) : Int))⟩,
   ⟨1, fun _ => .op (.exit 0), fun v => ((r v 1) == (0 : Int))⟩]

example : passes t_unlink_nonexistent_file = true := by decide +kernel

/-- `ut_lind_fs_unlink_root_directory`, `/repo/src/tests/fs_tests.rs` 1512-1525. -/
def t_unlink_root_directory : List Line :=
  [⟨1, fun _ => .op (.unlink [47]), fun v => ((r v 0) == ((-21) : Int))⟩,
   ⟨1, fun _ => .op (.exit 0), fun v => ((r v 1) == (0 : Int))⟩]

example : passes t_unlink_root_directory = true := by decide +kernel

/-- `ut_lind_fs_unlink_directory`, `/repo/src/tests/fs_tests.rs` 1528-1544. -/
def t_unlink_directory : List Line :=
  [⟨1, fun _ => .op (.mkdir [47, 116, 101, 115, 116, 100, 105, 114] 511#32), fun v => ((r v 0) == (0 : Int))⟩,
   ⟨1, fun _ => .op (.unlink [47, 116, 101, 115, 116, 100, 105, 114]), fun v => ((r v 1) == ((-21) : Int))⟩,
   ⟨1, fun _ => .op (.exit 0), fun v => ((r v 2) == (0 : Int))⟩]

example : passes t_unlink_directory = true := by decide +kernel

/-- `ut_lind_fs_unlink_and_close_file`, `/repo/src/tests/fs_tests.rs` 1547-1581. -/
def t_unlink_and_close_file : List Line :=
  [⟨1, fun _ => .op (.openP [47, 116, 101, 115, 116, 102, 105, 108, 101] 193#32 511#32), fun _ => true⟩,
   ⟨1, fun _ => .op (.stat [47, 116, 101, 115, 116, 102, 105, 108, 101]), fun v => ((r v 1) == (0 : Int)) && (((v 1).field .nlink) == (1 : Int))⟩,
   ⟨1, fun _ => .op (.unlink [47, 116, 101, 115, 116, 102, 105, 108, 101]), fun v => ((r v 2) == (0 : Int))⟩,
   ⟨1, fun v => .op (.close (r v 0)), fun v => ((r v 3) == (0 : Int))⟩,
   ⟨1, fun _ => .op (.stat [47, 116, 101, 115, 116, 102, 105, 108, 101]), fun v => ((r v 4) == ((-2) : Int))⟩,
   ⟨1, fun v => .op (.fstat (r v 0)), fun v => ((r v 5) == ((-9) : Int))⟩,
   ⟨1, fun _ => .op (.exit 0), fun v => ((r v 6) == (0 : Int))⟩]

example : passes t_unlink_and_close_file = true := by decide +kernel

/-- `ut_lind_fs_unlink_file`, `/repo/src/tests/fs_tests.rs` 1584-1605. -/
def t_unlink_file : List Line :=
  [⟨1, fun _ => .op (.openP [47, 116, 101, 115, 116, 102, 105, 108, 101] 193#32 511#32), fun _ => true⟩,
   ⟨1, fun _ => .op (.stat [47, 116, 101, 115, 116, 102, 105, 108, 101]), fun v => ((r v 1) == (0 : Int)) && (((v 1).field .nlink) == (1 : Int))⟩,
   ⟨1, fun _ => .op (.unlink [47, 116, 101, 115, 116, 102, 105, 108, 101]), fun v => ((r v 2) == (0 : Int))⟩,
   ⟨1, fun v => .op (.fstat (r v 0)), fun v => ((r v 3) == (0 : Int))⟩,
   ⟨1, fun _ => .op (.exit 0), fun v => ((r v 4) == (0 : Int))⟩]

example : passes t_unlink_file = true := by decide +kernel

/-- `ut_lind_fs_link_unlink_success`, `/repo/src/tests/fs_tests.rs` 1608-1653. -/
def t_link_unlink_success : List Line :=
  [⟨1, fun _ => .op (.openP [47, 102, 105, 108, 101, 76, 105, 110, 107] 193#32 511#32), fun _ => true⟩,
   ⟨1, fun v => .op (.lseek (r v 0) 0 0), fun v => ((r v 1) == (0 : Int))⟩,
   ⟨1, fun v => .op (.write (r v 0) [104, 105]), fun v => ((r v 2) == (2 : Int))⟩,
   ⟨1, fun _ => .op (.stat [47, 102, 105, 108, 101, 76, 105, 110, 107]), fun v => ((r v 3) == (0 : Int)) && (((v 3).field .size) == (2 : Int)) && (((v 3).field .nlink) == (1 : Int))⟩,
   ⟨1, fun _ => .op (.link [47, 102, 105, 108, 101, 76, 105, 110, 107] [47, 102, 105, 108, 101, 76, 105, 110, 107, 50]), fun v => ((r v 4) == (0 : Int))⟩,
   ⟨1, fun _ => .op (.stat [47, 102, 105, 108, 101, 76, 105, 110, 107]), fun v => ((r v 5) == (0 : Int))⟩,
   ⟨1, fun _ => .op (.stat [47, 102, 105, 108, 101, 76, 105, 110, 107, 50]), fun v => ((r v 6) == (0 : Int)) && ((v 5).stat == (v 6).stat && (v 5).stat.isSome) && (((v 5).field .nlink) == (2 : Int))⟩,
   ⟨1, fun _ => .op (.unlink [47, 102, 105, 108, 101, 76, 105, 110, 107]), fun v => ((r v 7) == (0 : Int))⟩,
   ⟨1, fun _ => .op (.stat [47, 102, 105, 108, 101, 76, 105, 110, 107, 50]), fun v => ((r v 8) == (0 : Int)) && (((v 8).field .nlink) == (1 : Int))⟩,
   ⟨1, fun _ => .op (.stat [47, 102, 105, 108, 101, 76, 105, 110, 107]), fun v => ((r v 9) != (0 : Int))⟩,
   ⟨1, fun _ => .op (.unlink [47, 102, 105, 108, 101, 76, 105, 110, 107, 50]), fun v => ((r v 10) == (0 : Int))⟩,
   ⟨1, fun _ => .op (.exit 0), fun v => ((r v 11) == (0 : Int))⟩]

example : passes t_link_unlink_success = true := by decide +kernel

/-- `ut_lind_fs_link_invalid_path_permissions`, `/repo/src/tests/fs_tests.rs` 1656-1679. -/
def t_link_invalid_path_permissions : List Line :=
  [⟨1, fun _ => .op (.mkdir [47, 116, 101, 115, 116, 100, 105, 114] 128#32), fun v => ((r v 0) == (0 : Int))⟩,
   ⟨1, fun _ => .op (.openP [47, 116, 101, 115, 116, 100, 105, 114, 47, 111, 108, 100, 100, 105, 114] 193#32 128#32), fun _ => true⟩,
   ⟨1, fun v => .op (.lseek (r v 1) 0 0), fun v => ((r v 2) == (0 : Int))⟩,
   ⟨1, fun _ => .op (.link [47, 116, 101, 115, 116, 100, 105, 114, 47, 111, 108, 100, 100, 105, 114] [47, 110, 101, 119, 112, 97, 116, 104]), fun v => ((r v 3) == (0 : Int))⟩,
   ⟨1, fun _ => .op (.exit 0), fun v => ((r v 4) == (0 : Int))⟩]

example : passes t_link_invalid_path_permissions = true := by decide +kernel

/-- `ut_lind_fs_file_lseek_past_end`, `/repo/src/tests/fs_tests.rs` 1682-1706. -/
def t_file_lseek_past_end : List Line :=
  [⟨1, fun _ => .op (.openP [47, 108, 115, 101, 101, 107, 80, 97, 115, 116, 69, 110, 100] 194#32 511#32), fun _ => true⟩,
   ⟨1, fun v => .op (.write (r v 0) [104, 101, 108, 108, 111]), fun v => ((r v 1) == (5 : Int))⟩,
   ⟨1, fun v => .op (.lseek (r v 0) 10 0), fun v => ((r v 2) == (10 : Int))⟩,
   ⟨1, fun v => .op (.write (r v 0) [49, 50, 51, 52, 53, 54]), fun v => ((r v 3) == (6 : Int))⟩,
   ⟨1, fun v => .op (.lseek (r v 0) 0 0), fun v => ((r v 4) == (0 : Int))⟩,
   ⟨1, fun v => .op (.read (r v 0) 20), fun v => ((r v 5) == (16 : Int)) && ((over (v 5).data ([0, 0, 0, 0, 0, 0, 0, 0, 0, 0, 0, 0, 0, 0, 0, 0])) == ([104, 101, 108, 108, 111, 0, 0, 0, 0, 0, 49, 50, 51, 52, 53, 54] : List UInt8))⟩,
   ⟨1, fun v => .op (.close (r v 0)), fun v => ((r v 6) == (0 : Int))⟩,
   ⟨1, fun _ => .op (.exit 0), fun v => ((r v 7) == (0 : Int))⟩]

example : passes t_file_lseek_past_end = true := by decide +kernel

/-- `ut_lind_fs_fstat_complex`, `/repo/src/tests/fs_tests.rs` 1709-1729. -/
def t_fstat_complex : List Line :=
  [⟨1, fun _ => .op (.openP [47, 99, 111, 109, 112, 108, 101, 120, 70, 105, 108, 101] 65#32 511#32), fun _ => true⟩,
   ⟨1, fun v => .op (.write (r v 0) [116, 101, 115, 116]), fun v => ((r v 1) == (4 : Int))⟩,
   ⟨1, fun v => .op (.fstat (r v 0)), fun v => ((r v 2) == (0 : Int)) && (((v 2).field .size) == (4 : Int)) && (((v 2).field .nlink) == (1 : Int))⟩,
   ⟨1, fun v => .op (.close (r v 0)), fun v => ((r v 3) == (0 : Int))⟩,
   ⟨1, fun _ => .op (.exit 0), fun v => ((r v 4) == (0 : Int))⟩]

example : passes t_fstat_complex = true := by decide +kernel

/-- `ut_lind_fs_load_fs`, `/repo/src/tests/fs_tests.rs` 1757-1780. -/
def t_load_fs : List Line :=
  [⟨1, fun _ => .op (.stat [47, 100, 101, 118]), fun _ => true⟩,
   ⟨1, fun _ => .op (.stat [47, 100, 101, 118, 47, 110, 117, 108, 108]), fun v => ((r v 1) == (0 : Int)) && (((v 1).field .rdev) == (259 : Int))⟩,
   ⟨1, fun _ => .op (.stat [47, 100, 101, 118, 47, 114, 97, 110, 100, 111, 109]), fun v => ((r v 2) == (0 : Int)) && (((v 2).field .rdev) == (264 : Int))⟩,
   ⟨1, fun _ => .op (.stat [47, 100, 101, 118, 47, 117, 114, 97, 110, 100, 111, 109]), fun v => ((r v 3) == (0 : Int)) && (((v 3).field .rdev) == (265 : Int))⟩,
   ⟨1, fun _ => .op (.exit 0), fun v => ((r v 4) == (0 : Int))⟩]

example : passes t_load_fs = true := by decide +kernel

/-- `ut_lind_fs_mknod_empty_path`, `/repo/src/tests/fs_tests.rs` 1783-1798. -/
def t_mknod_empty_path : List Line :=
  [⟨1, fun _ => .op (.mknod [] 8703#32 259#64), fun v => ((r v 0) == ((-2) : Int))⟩,
   ⟨1, fun _ => .op (.exit 0), fun v => ((r v 1) == (0 : Int))⟩]

example : passes t_mknod_empty_path = true := by decide +kernel

/-- `ut_lind_fs_mknod_nonexisting_parent_directory`, `/repo/src/tests/fs_tests.rs` 1801-1816. -/
def t_mknod_nonexisting_parent_directory : List Line :=
  [⟨1, fun _ => .op (.mknod [47, 112, 97, 114, 101, 110, 116, 100, 105, 114, 47, 102, 105, 108, 101] 8703#32 259#64), fun v => ((r v 0) == ((-2) : Int))⟩,
   ⟨1, fun _ => .op (.exit 0), fun v => ((r v 1) == (0 : Int))⟩]

example : passes t_mknod_nonexisting_parent_directory = true := by decide +kernel

/-- `ut_lind_fs_mknod_existing_file`, `/repo/src/tests/fs_tests.rs` 1819-1837. -/
def t_mknod_existing_file : List Line :=
  [⟨1, fun _ => .op (.mknod [47, 99, 104, 97, 114, 102, 105, 108, 101] 8703#32 259#64), fun v => ((r v 0) == (0 : Int))⟩,
   ⟨1, fun _ => .op (.mknod [47, 99, 104, 97, 114, 102, 105, 108, 101] 8703#32 259#64), fun v => ((r v 1) == ((-17) : Int))⟩,
   ⟨1, fun _ => .op (.exit 0), fun v => ((r v 2) == (0 : Int))⟩]

example : passes t_mknod_existing_file = true := by decide +kernel

/-- `ut_lind_fs_mknod_invalid_modebits`, `/repo/src/tests/fs_tests.rs` 1840-1856. -/
def t_mknod_invalid_modebits : List Line :=
  [⟨1, fun _ => .op (.mknod [47, 116, 101, 115, 116, 102, 105, 108, 101] 32767#32 259#64), fun v => ((r v 0) == ((-1) : Int))⟩,
   ⟨1, fun _ => .op (.exit 0), fun v => ((r v 1) == (0 : Int))⟩]

example : passes t_mknod_invalid_modebits = true := by decide +kernel

/-- `ut_lind_fs_mknod_invalid_filetypes`, `/repo/src/tests/fs_tests.rs` 1859-1895. -/
def t_mknod_invalid_filetypes : List Line :=
  [⟨1, fun _ => .op (.mknod [47, 105, 110, 118, 97, 108, 105, 100, 102, 105, 108, 101] 16895#32 259#64), fun v => ((r v 0) == ((-22) : Int))⟩,
   ⟨1, fun _ => .op (.mknod [47, 105, 110, 118, 97, 108, 105, 100, 102, 105, 108, 101] 4607#32 259#64), fun v => ((r v 1) == ((-22) : Int))⟩,
   ⟨1, fun _ => .op (.mknod [47, 105, 110, 118, 97, 108, 105, 100, 102, 105, 108, 101] 33279#32 259#64), fun v => ((r v 2) == ((-22) : Int))⟩,
   ⟨1, fun _ => .op (.mknod [47, 105, 110, 118, 97, 108, 105, 100, 102, 105, 108, 101] 49663#32 259#64), fun v => ((r v 3) == ((-22) : Int))⟩,
   ⟨1, fun _ => .op (.exit 0), fun v => ((r v 4) == (0 : Int))⟩]

example : passes t_mknod_invalid_filetypes = true := by decide +kernel

/-- `ut_lind_fs_mknod_success`, `/repo/src/tests/fs_tests.rs` 1898-1967. -/
def t_mknod_success : List Line :=
  [⟨1, fun _ => .op (.mknod [47, 114, 101, 97, 100, 79, 110, 108, 121, 70, 105, 108, 101] 8448#32 259#64), fun v => ((r v 0) == (0 : Int))⟩,
   ⟨1, fun _ => .op (.mknod [47, 119, 114, 105, 116, 101, 79, 110, 108, 121, 70, 105, 108, 101] 8320#32 259#64), fun v => ((r v 1) == (0 : Int))⟩,
   ⟨1, fun _ => .op (.mknod [47, 101, 120, 101, 99, 117, 116, 101, 79, 110, 108, 121, 70, 105, 108, 101] 8256#32 259#64), fun v => ((r v 2) == (0 : Int))⟩,
   ⟨1, fun _ => .op (.mknod [47, 110, 117, 108, 108] 8703#32 259#64), fun v => ((r v 3) == (0 : Int))⟩,
   ⟨1, fun _ => .op (.openP [47, 110, 117, 108, 108] 2#32 511#32), fun _ => true⟩,
   ⟨1, fun v => .op (.fstat (r v 4)), fun v => ((r v 5) == (0 : Int)) && (((((v 5).field .mode)).toNat &&& 61440 : Nat) == (8192 : Int)) && (((v 5).field .rdev) == (259 : Int))⟩,
   ⟨1, fun v => .op (.write (r v 4) [116, 101, 115, 116]), fun v => ((r v 6) == (4 : Int))⟩,
   ⟨1, fun v => .op (.read (r v 4) 4), fun v => ((r v 7) == (0 : Int)) && ((over (v 7).data ([0, 0, 0, 0])) == ([0, 0, 0, 0] : List UInt8))⟩,
   ⟨1, fun v => .op (.close (r v 4)), fun v => ((r v 8) == (0 : Int))⟩,
   ⟨1, fun _ => .op (.mknod [47, 114, 97, 110, 100, 111, 109] 8703#32 264#64), fun v => ((r v 9) == (0 : Int))⟩,
   ⟨1, fun _ => .op (.openP [47, 114, 97, 110, 100, 111, 109] 2#32 511#32), fun _ => true⟩,
   ⟨1, fun v => .op (.fstat (r v 10)), fun v => ((r v 11) == (0 : Int)) && (((((v 11).field .mode)).toNat &&& 61440 : Nat) == (8192 : Int)) && (((v 11).field .rdev) == (264 : Int))⟩,
   ⟨1, fun v => .op (.write (r v 10) [116, 101, 115, 116, 105, 110, 103]), fun v => ((r v 12) == (7 : Int))⟩,
   ⟨1, fun v => .op (.read (r v 10) 7), fun v => ((r v 13) != (0 : Int))⟩,
   ⟨1, fun v => .op (.close (r v 10)), fun v => ((r v 14) == (0 : Int))⟩,
   ⟨1, fun _ => .op (.exit 0), fun v => ((r v 15) == (0 : Int))⟩]

example : passes t_mknod_success = true := by decide +kernel

/-- `ut_lind_fs_multiple_open`, `/repo/src/tests/fs_tests.rs` 1970-2003. -/
def t_multiple_open : List Line :=
  [⟨1, fun _ => .op (.openP [47, 102, 111, 111] 194#32 511#32), fun _ => true⟩,
   ⟨1, fun _ => .op (.openP [47, 102, 111, 111] 2#32 511#32), fun v => ((r v 0) != ((r v 1) : Int))⟩,
   ⟨1, fun _ => .op (.openP [100, 111, 117, 98, 108, 101, 95, 111, 112, 101, 110, 95, 102, 105, 108, 101] 578#32 438#32), fun _ => true⟩,
   ⟨1, fun v => .op (.write (r v 2) [104, 105]), fun v => ((r v 3) == (2 : Int))⟩,
   ⟨1, fun v => .op (.lseek (r v 2) 0 0), fun v => ((r v 4) == (0 : Int))⟩,
   ⟨1, fun v => .op (.read (r v 2) 2), fun v => ((r v 5) == (2 : Int)) && ((over (v 5).data ([0, 0])) == ([104, 105] : List UInt8))⟩,
   ⟨1, fun _ => .op (.openP [100, 111, 117, 98, 108, 101, 95, 111, 112, 101, 110, 95, 102, 105, 108, 101] 578#32 438#32), fun _ => true⟩,
   ⟨1, fun v => .op (.lseek (r v 2) 2 0), fun v => ((r v 7) == (2 : Int))⟩,
   ⟨1, fun v => .op (.write (r v 2) [98, 111, 111]), fun v => ((r v 8) == (3 : Int))⟩,
   ⟨1, fun v => .op (.lseek (r v 2) 0 0), fun v => ((r v 9) == (0 : Int))⟩,
   ⟨1, fun v => .op (.read (r v 2) 5), fun v => ((r v 10) == (5 : Int)) && ((over (v 10).data ([0, 0, 0, 0, 0])) == ([0, 0, 98, 111, 111] : List UInt8))⟩,
   ⟨1, fun _ => .op (.exit 0), fun v => ((r v 11) == (0 : Int))⟩]

example : passes t_multiple_open = true := by decide +kernel

/-- `ut_lind_fs_rmdir_normal`, `/repo/src/tests/fs_tests.rs` 2006-2032. -/
def t_rmdir_normal : List Line :=
  [⟨1, fun _ => .op (.mkdir [47, 112, 97, 114, 101, 110, 116, 95, 100, 105, 114] 511#32), fun v => ((r v 0) == (0 : Int))⟩,
   ⟨1, fun _ => .op (.mkdir [47, 112, 97, 114, 101, 110, 116, 95, 100, 105, 114, 47, 100, 105, 114] 511#32), fun v => ((r v 1) == (0 : Int))⟩,
   ⟨1, fun _ => .op (.rmdir [47, 112, 97, 114, 101, 110, 116, 95, 100, 105, 114, 47, 100, 105, 114]), fun v => ((r v 2) == (0 : Int))⟩,
   ⟨1, fun _ => .op (.openP [47, 112, 97, 114, 101, 110, 116, 95, 100, 105, 114, 47, 100, 105, 114] 512#32 511#32), fun v => ((r v 3) == ((-2) : Int))⟩,
   ⟨1, fun _ => .op (.exit 0), fun v => ((r v 4) == (0 : Int))⟩]

example : passes t_rmdir_normal = true := by decide +kernel

/-- `ut_lind_fs_rmdir_empty_path`, `/repo/src/tests/fs_tests.rs` 2035-2048. -/
def t_rmdir_empty_path : List Line :=
  [⟨1, fun _ => .op (.rmdir []), fun v => ((r v 0) == ((-2) : Int))⟩,
   ⟨1, fun _ => .op (.exit 0), fun v => ((r v 1) == (0 : Int))⟩]

example : passes t_rmdir_empty_path = true := by decide +kernel

/-- `ut_lind_fs_rmdir_nonexist_dir`, `/repo/src/tests/fs_tests.rs` 2051-2069. -/
def t_rmdir_nonexist_dir : List Line :=
  [⟨1, fun _ => .op (.mkdir [47, 112, 97, 114, 101, 110, 116, 95, 100, 105, 114] 511#32), fun v => ((r v 0) == (0 : Int))⟩,
   ⟨1, fun _ => .op (.rmdir [47, 112, 97, 114, 101, 110, 116, 95, 100, 105, 114, 47, 100, 105, 114]), fun v => ((r v 1) == ((-2) : Int))⟩,
   ⟨1, fun _ => .op (.exit 0), fun v => ((r v 2) == (0 : Int))⟩]

example : passes t_rmdir_nonexist_dir = true := by decide +kernel

/-- `ut_lind_fs_rmdir_root`, `/repo/src/tests/fs_tests.rs` 2072-2085. -/
def t_rmdir_root : List Line :=
  [⟨1, fun _ => .op (.rmdir [47]), fun v => ((r v 0) == ((-16) : Int))⟩,
   ⟨1, fun _ => .op (.exit 0), fun v => ((r v 1) == (0 : Int))⟩]

example : passes t_rmdir_root = true := by decide +kernel

/-- `ut_lind_fs_rmdir_nonempty_dir`, `/repo/src/tests/fs_tests.rs` 2088-2108. -/
def t_rmdir_nonempty_dir : List Line :=
  [⟨1, fun _ => .op (.mkdir [47, 112, 97, 114, 101, 110, 116, 95, 100, 105, 114] 511#32), fun v => ((r v 0) == (0 : Int))⟩,
   ⟨1, fun _ => .op (.mkdir [47, 112, 97, 114, 101, 110, 116, 95, 100, 105, 114, 47, 100, 105, 114] 511#32), fun v => ((r v 1) == (0 : Int))⟩,
   ⟨1, fun _ => .op (.rmdir [47, 112, 97, 114, 101, 110, 116, 95, 100, 105, 114]), fun v => ((r v 2) == ((-39) : Int))⟩,
   ⟨1, fun _ => .op (.exit 0), fun v => ((r v 3) == (0 : Int))⟩]

example : passes t_rmdir_nonempty_dir = true := by decide +kernel

/-- `ut_lind_fs_rmdir_nowriteperm_child_dir`, `/repo/src/tests/fs_tests.rs` 2111-2131. -/
def t_rmdir_nowriteperm_child_dir : List Line :=
  [⟨1, fun _ => .op (.mkdir [47, 112, 97, 114, 101, 110, 116, 95, 100, 105, 114] 511#32), fun v => ((r v 0) == (0 : Int))⟩,
   ⟨1, fun _ => .op (.mkdir [47, 112, 97, 114, 101, 110, 116, 95, 100, 105, 114, 47, 100, 105, 114] 0#32), fun v => ((r v 1) == (0 : Int))⟩,
   ⟨1, fun _ => .op (.rmdir [47, 112, 97, 114, 101, 110, 116, 95, 100, 105, 114, 47, 100, 105, 114]), fun v => ((r v 2) == ((-1) : Int))⟩,
   ⟨1, fun _ => .op (.exit 0), fun v => ((r v 3) == (0 : Int))⟩]

example : passes t_rmdir_nowriteperm_child_dir = true := by decide +kernel

/-- `ut_lind_fs_rmdir_nowriteperm_parent_dir`, `/repo/src/tests/fs_tests.rs` 2134-2160. -/
def t_rmdir_nowriteperm_parent_dir : List Line :=
  [⟨1, fun _ => .op (.mkdir [47, 112, 97, 114, 101, 110, 116, 95, 100, 105, 114] 511#32), fun v => ((r v 0) == (0 : Int))⟩,
   ⟨1, fun _ => .op (.mkdir [47, 112, 97, 114, 101, 110, 116, 95, 100, 105, 114, 47, 100, 105, 114] 511#32), fun v => ((r v 1) == (0 : Int))⟩,
   ⟨1, fun _ => .op (.chmod [47, 112, 97, 114, 101, 110, 116, 95, 100, 105, 114] 292#32), fun v => ((r v 2) == (0 : Int))⟩,
   ⟨1, fun _ => .op (.rmdir [47, 112, 97, 114, 101, 110, 116, 95, 100, 105, 114, 47, 100, 105, 114]), fun v => ((r v 3) == ((-1) : Int))⟩,
   ⟨1, fun _ => .op (.exit 0), fun v => ((r v 4) == (0 : Int))⟩]

example : passes t_rmdir_nowriteperm_parent_dir = true := by decide +kernel

/-- `ut_lind_fs_search_permission_bug_with_rmdir`, `/repo/src/tests/fs_tests.rs` 2172-2195. -/
def t_search_permission_bug_with_rmdir : List Line :=
  [⟨1, fun _ => .op (.mkdir [47, 112, 97, 114, 101, 110, 116, 95, 100, 105, 114] 146#32), fun v => ((r v 0) == (0 : Int))⟩,
   ⟨1, fun _ => .op (.mkdir [47, 112, 97, 114, 101, 110, 116, 95, 100, 105, 114, 47, 100, 105, 114] 511#32), fun v => ((r v 1) == (0 : Int))⟩,
   ⟨1, fun _ => .op (.rmdir [47, 112, 97, 114, 101, 110, 116, 95, 100, 105, 114, 47, 100, 105, 114]), fun v => ((r v 2) == (0 : Int))⟩,
   ⟨1, fun _ => .op (.exit 0), fun v => ((r v 3) == (0 : Int))⟩]

example : passes t_search_permission_bug_with_rmdir = true := by decide +kernel

/-- `ut_lind_fs_stat_file_complex`, `/repo/src/tests/fs_tests.rs` 2198-2225. -/
def t_stat_file_complex : List Line :=
  [⟨1, fun _ => .op (.openP [47, 102, 111, 111, 67, 111, 109, 112, 108, 101, 120] 193#32 511#32), fun _ => true⟩,
   ⟨1, fun v => .op (.write (r v 0) [104, 105]), fun v => ((r v 1) == (2 : Int))⟩,
   ⟨1, fun v => .op (.fstat (r v 0)), fun v => ((r v 2) == (0 : Int)) && (((v 2).field .size) == (2 : Int)) && (((v 2).field .nlink) == (1 : Int))⟩,
   ⟨1, fun _ => .op (.link [47, 102, 111, 111, 67, 111, 109, 112, 108, 101, 120] [47, 98, 97, 114, 67, 111, 109, 112, 108, 101, 120]), fun v => ((r v 3) == (0 : Int))⟩,
   ⟨1, fun _ => .op (.stat [47, 102, 111, 111, 67, 111, 109, 112, 108, 101, 120]), fun v => ((r v 4) == (0 : Int))⟩,
   ⟨1, fun _ => .op (.stat [47, 98, 97, 114, 67, 111, 109, 112, 108, 101, 120]), fun v => ((r v 5) == (0 : Int)) && ((v 4).stat == (v 5).stat && (v 4).stat.isSome) && (((v 4).field .nlink) == (2 : Int))⟩,
   ⟨1, fun _ => .op (.exit 0), fun v => ((r v 6) == (0 : Int))⟩]

example : passes t_stat_file_complex = true := by decide +kernel

/-- `ut_lind_fs_stat_file_mode`, `/repo/src/tests/fs_tests.rs` 2228-2253. -/
def t_stat_file_mode : List Line :=
  [⟨1, fun _ => .op (.openP [47, 102, 111, 111, 70, 105, 108, 101, 77, 111, 100, 101] 193#32 511#32), fun _ => true⟩,
   ⟨1, fun _ => .op (.stat [47, 102, 111, 111, 70, 105, 108, 101, 77, 111, 100, 101]), fun v => ((r v 1) == (0 : Int)) && (((v 1).field .mode) == (33279 : Int))⟩,
   ⟨1, fun _ => .op (.openP [47, 102, 111, 111, 70, 105, 108, 101, 77, 111, 100, 101, 50] 193#32 0#32), fun _ => true⟩,
   ⟨1, fun _ => .op (.stat [47, 102, 111, 111, 70, 105, 108, 101, 77, 111, 100, 101, 50]), fun v => ((r v 3) == (0 : Int)) && (((v 3).field .mode) == (32768 : Int))⟩,
   ⟨1, fun _ => .op (.stat [46]), fun v => ((r v 4) == (0 : Int))⟩,
   ⟨1, fun _ => .op (.exit 0), fun v => ((r v 5) == (0 : Int))⟩]

example : passes t_stat_file_mode = true := by decide +kernel

/-- `ut_lind_fs_statfs`, `/repo/src/tests/fs_tests.rs` 2256-2270. -/
def t_statfs : List Line :=
  [⟨1, fun _ => .statfs [47], fun v => ((r v 0) == (0 : Int)) && (((v 0).fsd 0) == (3203383518 : Int)) && (((v 0).fsd 1) == (4096 : Int))⟩,
   ⟨1, fun _ => .op (.exit 0), fun v => ((r v 1) == (0 : Int))⟩]

example : passes t_statfs = true := by decide +kernel

/-- `ut_lind_fs_fstatfs`, `/repo/src/tests/fs_tests.rs` 2273-2294. -/
def t_fstatfs : List Line :=
  [⟨1, fun _ => .op (.openP [47] 0#32 0#32), fun v => decide ((r v 0) >= (0 : Int))⟩,
   ⟨1, fun v => .fstatfs (r v 0), fun v => ((r v 1) == (0 : Int)) && (((v 1).fsd 0) == (3203383518 : Int)) && (((v 1).fsd 1) == (4096 : Int))⟩,
   ⟨1, fun v => .op (.close (r v 0)), fun v => ((r v 2) == (0 : Int))⟩,
   ⟨1, fun _ => .op (.exit 0), fun v => ((r v 3) == (0 : Int))⟩]

example : passes t_fstatfs = true := by decide +kernel

end Verif.Conform
