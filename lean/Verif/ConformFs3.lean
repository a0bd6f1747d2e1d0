import Verif.Conform

/-!
# The tests of `/repo/src/tests/fs_tests.rs` on the model, part 3 of 4

Transcribed by a script.  `v k` is what call number `k` gave (counted from 0), `r v k` the number it returned.  `socketpair` is two
calls of `socket` here; after `exec` the calls the test makes through the old process are made by the new one.
-/

namespace Verif.Conform
open Verif.Fs Verif.Kernel Verif.Path Verif.Misc

/-- `ut_lind_fs_rename`, `/repo/src/tests/fs_tests.rs` 2297-2310. -/
def t_rename : List Line :=
  [⟨1, fun _ => .op (.mkdir [47, 116, 101, 115, 116, 95, 100, 105, 114] 511#32), fun v => ((r v 0) == (0 : Int))⟩,
   ⟨1, fun _ => .op (.rename [47, 116, 101, 115, 116, 95, 100, 105, 114] [47, 116, 101, 115, 116, 95, 100, 105, 114, 95, 114, 101, 110, 97, 109, 101, 100]), fun v => ((r v 1) == (0 : Int))⟩,
   ⟨1, fun _ => .op (.exit 0), fun v => ((r v 2) == (0 : Int))⟩]

example : passes t_rename = true := by decide +kernel

/-- `ut_lind_fs_ftruncate`, `/repo/src/tests/fs_tests.rs` 2313-2340. -/
def t_ftruncate : List Line :=
  [⟨1, fun _ => .op (.openP [47, 102, 116, 114, 117, 110, 99, 97, 116, 101] 578#32 511#32), fun v => decide ((r v 0) >= (0 : Int))⟩,
   ⟨1, fun v => .op (.write (r v 0) [72, 101, 108, 108, 111, 32, 116, 104, 101, 114, 101, 33]), fun v => ((r v 1) == (12 : Int))⟩,
   ⟨1, fun v => .op (.ftruncate (r v 0) 15), fun v => ((r v 2) == (0 : Int))⟩,
   ⟨1, fun v => .op (.lseek (r v 0) 0 0), fun v => ((r v 3) == (0 : Int))⟩,
   ⟨1, fun v => .op (.read (r v 0) 15), fun v => ((r v 4) == (15 : Int)) && ((over (v 4).data ([0, 0, 0, 0, 0, 0, 0, 0, 0, 0, 0, 0, 0, 0, 0])) == ([72, 101, 108, 108, 111, 32, 116, 104, 101, 114, 101, 33, 0, 0, 0] : List UInt8))⟩,
   ⟨1, fun v => .op (.ftruncate (r v 0) 5), fun v => ((r v 5) == (0 : Int))⟩,
   ⟨1, fun v => .op (.lseek (r v 0) 0 0), fun v => ((r v 6) == (0 : Int))⟩,
   ⟨1, fun v => .op (.read (r v 0) 7), fun v => ((r v 7) == (5 : Int)) && ((over (v 7).data ([0, 0, 0, 0, 0, 0, 0])) == ([72, 101, 108, 108, 111, 0, 0] : List UInt8))⟩,
   ⟨1, fun _ => .op (.exit 0), fun v => ((r v 8) == (0 : Int))⟩]

example : passes t_ftruncate = true := by decide +kernel

/-- `ut_lind_fs_truncate`, `/repo/src/tests/fs_tests.rs` 2343-2371. -/
def t_truncate : List Line :=
  [⟨1, fun _ => .op (.openP [47, 116, 114, 117, 110, 99, 97, 116, 101] 578#32 511#32), fun v => decide ((r v 0) >= (0 : Int))⟩,
   ⟨1, fun v => .op (.write (r v 0) [72, 101, 108, 108, 111, 32, 116, 104, 101, 114, 101, 33]), fun v => ((r v 1) == (12 : Int))⟩,
   ⟨1, fun _ => .op (.truncate [47, 116, 114, 117, 110, 99, 97, 116, 101] 15), fun v => ((r v 2) == (0 : Int))⟩,
   ⟨1, fun v => .op (.lseek (r v 0) 0 0), fun v => ((r v 3) == (0 : Int))⟩,
   ⟨1, fun v => .op (.read (r v 0) 15), fun v => ((r v 4) == (15 : Int)) && ((over (v 4).data ([0, 0, 0, 0, 0, 0, 0, 0, 0, 0, 0, 0, 0, 0, 0])) == ([72, 101, 108, 108, 111, 32, 116, 104, 101, 114, 101, 33, 0, 0, 0] : List UInt8))⟩,
   ⟨1, fun _ => .op (.truncate [47, 116, 114, 117, 110, 99, 97, 116, 101] 5), fun v => ((r v 5) == (0 : Int))⟩,
   ⟨1, fun v => .op (.lseek (r v 0) 0 0), fun v => ((r v 6) == (0 : Int))⟩,
   ⟨1, fun v => .op (.read (r v 0) 7), fun v => ((r v 7) == (5 : Int)) && ((over (v 7).data ([0, 0, 0, 0, 0, 0, 0])) == ([72, 101, 108, 108, 111, 0, 0] : List UInt8))⟩,
   ⟨1, fun _ => .op (.exit 0), fun v => ((r v 8) == (0 : Int))⟩]

example : passes t_truncate = true := by decide +kernel

/-- `ut_lind_fs_getdents`, `/repo/src/tests/fs_tests.rs` 2380-2415. -/
def t_getdents : List Line :=
  [⟨1, fun _ => .op (.mkdir [47, 103, 101, 116, 100, 101, 110, 116, 115] 511#32), fun v => ((r v 0) == (0 : Int))⟩,
   ⟨1, fun _ => .op (.openP [47, 103, 101, 116, 100, 101, 110, 116, 115] 2#32 511#32), fun _ => true⟩,
   ⟨1, fun v => .op (.getdents (r v 1) 50), fun v => ((r v 2) == (48 : Int)) && ((((v 2).data).drop 8).take 8 == ([24, 0, 0, 0, 0, 0, 0, 0] : List UInt8)) && ((((v 2).data).drop 16).take 2 == ([24, 0] : List UInt8)) && (((((v 2).data).drop 18).take 2 == ([46, 0] : List UInt8)) || ((((v 2).data).drop 18).take 3 == ([46, 46, 0] : List UInt8))) && decide ((((v 2).data).drop 32).headD 0 ≥ 48)⟩,
   ⟨1, fun v => .op (.close (r v 1)), fun v => ((r v 3) == (0 : Int))⟩,
   ⟨1, fun _ => .op (.exit 0), fun v => ((r v 4) == (0 : Int))⟩]

example : passes t_getdents = true := by decide +kernel

/-- `ut_lind_fs_getdents_invalid_fd`, `/repo/src/tests/fs_tests.rs` 2417-2442. -/
def t_getdents_invalid_fd : List Line :=
  [⟨1, fun _ => .op (.mkdir [47, 103, 101, 116, 100, 101, 110, 116, 115] 511#32), fun v => ((r v 0) == (0 : Int))⟩,
   ⟨1, fun _ => .op (.openP [47, 103, 101, 116, 100, 101, 110, 116, 115] 2#32 511#32), fun _ => true⟩,
   ⟨1, fun _ => .op (.getdents (-1) 50), fun v => ((r v 2) == ((-9) : Int))⟩,
   ⟨1, fun v => .op (.close (r v 1)), fun v => ((r v 3) == (0 : Int))⟩,
   ⟨1, fun _ => .op (.exit 0), fun v => ((r v 4) == (0 : Int))⟩]

example : passes t_getdents_invalid_fd = true := by decide +kernel

/-- `ut_lind_fs_getdents_out_of_range_fd`, `/repo/src/tests/fs_tests.rs` 2445-2465. -/
def t_getdents_out_of_range_fd : List Line :=
  [⟨1, fun _ => .op (.getdents 1025 1024), fun v => ((r v 0) == ((-9) : Int))⟩,
   ⟨1, fun _ => .op (.exit 0), fun v => ((r v 1) == (0 : Int))⟩]

example : passes t_getdents_out_of_range_fd = true := by decide +kernel

/-- `ut_lind_fs_getdents_non_existing_fd`, `/repo/src/tests/fs_tests.rs` 2468-2488. -/
def t_getdents_non_existing_fd : List Line :=
  [⟨1, fun _ => .op (.getdents 100 1024), fun v => ((r v 0) == ((-9) : Int))⟩,
   ⟨1, fun _ => .op (.exit 0), fun v => ((r v 1) == (0 : Int))⟩]

example : passes t_getdents_non_existing_fd = true := by decide +kernel

/-- `ut_lind_fs_getdents_bufsize_too_small`, `/repo/src/tests/fs_tests.rs` 2491-2517. -/
def t_getdents_bufsize_too_small : List Line :=
  [⟨1, fun _ => .op (.mkdir [47, 103, 101, 116, 100, 101, 110, 116, 115] 511#32), fun v => ((r v 0) == (0 : Int))⟩,
   ⟨1, fun _ => .op (.openP [47, 103, 101, 116, 100, 101, 110, 116, 115] 2#32 511#32), fun _ => true⟩,
   ⟨1, fun v => .op (.getdents (r v 1) 17), fun v => ((r v 2) == ((-22) : Int))⟩,
   ⟨1, fun v => .op (.close (r v 1)), fun v => ((r v 3) == (0 : Int))⟩,
   ⟨1, fun _ => .op (.exit 0), fun v => ((r v 4) == (0 : Int))⟩]

example : passes t_getdents_bufsize_too_small = true := by decide +kernel

/-- `ut_lind_fs_getdents_non_directory_fd`, `/repo/src/tests/fs_tests.rs` 2520-2545. -/
def t_getdents_non_directory_fd : List Line :=
  [⟨1, fun _ => .op (.openP [47, 114, 101, 103, 117, 108, 97, 114, 102, 105, 108, 101] 65#32 511#32), fun v => decide ((r v 0) >= (0 : Int))⟩,
   ⟨1, fun v => .op (.getdents (r v 0) 1024), fun v => ((r v 1) == ((-20) : Int))⟩,
   ⟨1, fun v => .op (.close (r v 0)), fun v => ((r v 2) == (0 : Int))⟩,
   ⟨1, fun _ => .op (.exit 0), fun v => ((r v 3) == (0 : Int))⟩]

example : passes t_getdents_non_directory_fd = true := by decide +kernel

/-- `ut_lind_fs_dir_chdir_getcwd`, `/repo/src/tests/fs_tests.rs` 2548-2584. -/
def t_dir_chdir_getcwd : List Line :=
  [⟨1, fun _ => .op (.mkdir [47, 110, 101, 119, 99, 119, 100, 49] 511#32), fun _ => true⟩,
   ⟨1, fun _ => .op (.access [110, 101, 119, 99, 119, 100, 49] 0#32), fun v => ((r v 1) == (0 : Int))⟩,
   ⟨1, fun _ => .op (.chdir [47]), fun v => ((r v 2) == (0 : Int))⟩,
   ⟨1, fun _ => .getcwd ([0, 0, 0, 0, 0, 0, 0, 0, 0]) 2, fun v => ((r v 3) == (0 : Int)) && ((v 3).data == ([47, 0, 0, 0, 0, 0, 0, 0, 0] : List UInt8))⟩,
   ⟨1, fun _ => .op (.chdir [47, 110, 101, 119, 99, 119, 100, 49]), fun v => ((r v 4) == (0 : Int))⟩,
   ⟨1, fun v => .getcwd ((v 3).data) 9, fun v => ((r v 5) == (0 : Int)) && ((v 5).data == ([47, 110, 101, 119, 99, 119, 100, 49, 0] : List UInt8))⟩,
   ⟨1, fun _ => .op (.exit 0), fun v => ((r v 6) == (0 : Int))⟩]

example : passes t_dir_chdir_getcwd = true := by decide +kernel

/-- `ut_lind_fs_getcwd_invalid_args`, `/repo/src/tests/fs_tests.rs` 2587-2627. -/
def t_getcwd_invalid_args : List Line :=
  [⟨1, fun _ => .op (.mkdir [47, 110, 101, 119, 99, 119, 100, 50] 511#32), fun _ => true⟩,
   ⟨1, fun _ => .op (.access [110, 101, 119, 99, 119, 100, 50] 0#32), fun v => ((r v 1) == (0 : Int))⟩,
   ⟨1, fun _ => .op (.chdir [110, 101, 119, 99, 119, 100, 50]), fun v => ((r v 2) == (0 : Int))⟩,
   ⟨1, fun _ => .getcwd ([0, 0, 0, 0, 0, 0, 0, 0, 0]) 0, fun v => ((r v 3) == ((-22) : Int))⟩,
   ⟨1, fun v => .getcwd ((v 3).data) 8, fun v => ((r v 4) == ((-34) : Int))⟩,
   ⟨1, fun _ => .op (.exit 0), fun v => ((r v 5) == (0 : Int))⟩]

example : passes t_getcwd_invalid_args = true := by decide +kernel

/-- `ut_lind_fs_exec_cloexec`, `/repo/src/tests/fs_tests.rs` 2630-2664. -/
def t_exec_cloexec : List Line :=
  [⟨1, fun _ => .op (.openP [47, 99, 108, 111, 101, 120, 101, 99, 117, 116, 101, 100] 524866#32 511#32), fun _ => true⟩,
   ⟨1, fun _ => .op (.openP [47, 99, 108, 111, 101, 120, 101, 107, 101, 112, 116] 578#32 511#32), fun v => decide ((r v 0) > (0 : Int)) && decide ((r v 1) > (0 : Int))⟩,
   ⟨1, fun v => .op (.fstat (r v 0)), fun v => ((r v 2) == (0 : Int))⟩,
   ⟨1, fun v => .op (.fstat (r v 1)), fun v => ((r v 3) == (0 : Int))⟩,
   ⟨1, fun _ => .op (.exec 2), fun v => ((r v 4) == (0 : Int))⟩,
   ⟨2, fun v => .op (.fstat (r v 0)), fun v => ((r v 5) == ((-9) : Int))⟩,
   ⟨2, fun v => .op (.fstat (r v 1)), fun v => ((r v 6) == (0 : Int))⟩,
   ⟨2, fun v => .op (.close (r v 1)), fun v => ((r v 7) == (0 : Int))⟩,
   ⟨2, fun _ => .op (.unlink [47, 99, 108, 111, 101, 120, 101, 99, 117, 116, 101, 100]), fun v => ((r v 8) == (0 : Int))⟩,
   ⟨2, fun _ => .op (.unlink [47, 99, 108, 111, 101, 120, 101, 107, 101, 112, 116]), fun v => ((r v 9) == (0 : Int))⟩,
   ⟨2, fun _ => .op (.exit 0), fun v => ((r v 10) == (0 : Int))⟩]

example : passes t_exec_cloexec = true := by decide +kernel

/-- `ut_lind_fs_mkdir_empty_directory`, `/repo/src/tests/fs_tests.rs` 2944-2955. -/
def t_mkdir_empty_directory : List Line :=
  [⟨1, fun _ => .op (.mkdir [] 511#32), fun v => ((r v 0) == ((-2) : Int))⟩,
   ⟨1, fun _ => .op (.exit 0), fun v => ((r v 1) == (0 : Int))⟩]

example : passes t_mkdir_empty_directory = true := by decide +kernel

/-- `ut_lind_fs_mkdir_nonexisting_directory`, `/repo/src/tests/fs_tests.rs` 2958-2969. -/
def t_mkdir_nonexisting_directory : List Line :=
  [⟨1, fun _ => .op (.mkdir [47, 112, 97, 114, 101, 110, 116, 100, 105, 114, 47, 100, 105, 114] 511#32), fun v => ((r v 0) == ((-2) : Int))⟩,
   ⟨1, fun _ => .op (.exit 0), fun v => ((r v 1) == (0 : Int))⟩]

example : passes t_mkdir_nonexisting_directory = true := by decide +kernel

/-- `ut_lind_fs_mkdir_existing_directory`, `/repo/src/tests/fs_tests.rs` 2972-2985. -/
def t_mkdir_existing_directory : List Line :=
  [⟨1, fun _ => .op (.mkdir [47, 112, 97, 114, 101, 110, 116, 100, 105, 114] 511#32), fun _ => true⟩,
   ⟨1, fun _ => .op (.mkdir [47, 112, 97, 114, 101, 110, 116, 100, 105, 114] 511#32), fun v => ((r v 1) == ((-17) : Int))⟩,
   ⟨1, fun _ => .op (.exit 0), fun v => ((r v 2) == (0 : Int))⟩]

example : passes t_mkdir_existing_directory = true := by decide +kernel

/-- `ut_lind_fs_mkdir_invalid_modebits`, `/repo/src/tests/fs_tests.rs` 2988-3005. -/
def t_mkdir_invalid_modebits : List Line :=
  [⟨1, fun _ => .op (.mkdir [47, 112, 97, 114, 101, 110, 116, 100, 105, 114] 511#32), fun _ => true⟩,
   ⟨1, fun _ => .op (.mkdir [47, 112, 97, 114, 101, 110, 116, 100, 105, 114, 47, 100, 105, 114] 32767#32), fun v => ((r v 1) == ((-1) : Int))⟩,
   ⟨1, fun _ => .op (.exit 0), fun v => ((r v 2) == (0 : Int))⟩]

example : passes t_mkdir_invalid_modebits = true := by decide +kernel

/-- `ut_lind_fs_mkdir_success`, `/repo/src/tests/fs_tests.rs` 3008-3041. -/
def t_mkdir_success : List Line :=
  [⟨1, fun _ => .op (.mkdir [47, 112, 97, 114, 101, 110, 116, 100, 105, 114] 511#32), fun _ => true⟩,
   ⟨1, fun _ => .op (.stat [47, 112, 97, 114, 101, 110, 116, 100, 105, 114]), fun v => ((r v 1) == (0 : Int)) && (((v 1).field .nlink) == (3 : Int))⟩,
   ⟨1, fun _ => .op (.mkdir [47, 112, 97, 114, 101, 110, 116, 100, 105, 114, 47, 100, 105, 114] 511#32), fun v => ((r v 2) == (0 : Int))⟩,
   ⟨1, fun _ => .op (.stat [47, 112, 97, 114, 101, 110, 116, 100, 105, 114, 47, 100, 105, 114]), fun v => ((r v 3) == (0 : Int)) && (((v 3).field .nlink) == (3 : Int))⟩,
   ⟨1, fun _ => .op (.stat [47, 112, 97, 114, 101, 110, 116, 100, 105, 114]), fun v => ((r v 4) == (0 : Int)) && (((v 4).field .nlink) == (4 : Int))⟩,
   ⟨1, fun _ => .op (.exit 0), fun v => ((r v 5) == (0 : Int))⟩]

example : passes t_mkdir_success = true := by decide +kernel

/-- `ut_lind_fs_mkdir_using_symlink`, `/repo/src/tests/fs_tests.rs` 3044-3067. -/
def t_mkdir_using_symlink : List Line :=
  [⟨1, fun _ => .op (.openP [47, 111, 114, 105, 103, 105, 110, 97, 108, 70, 105, 108, 101] 193#32 511#32), fun _ => true⟩,
   ⟨1, fun v => .op (.write (r v 0) [104, 105]), fun v => ((r v 1) == (2 : Int))⟩,
   ⟨1, fun _ => .op (.link [47, 111, 114, 105, 103, 105, 110, 97, 108, 70, 105, 108, 101] [47, 115, 121, 109, 108, 105, 110, 107, 70, 105, 108, 101]), fun v => ((r v 2) == (0 : Int))⟩,
   ⟨1, fun _ => .op (.mkdir [47, 115, 121, 109, 108, 105, 110, 107, 70, 105, 108, 101] 511#32), fun v => ((r v 3) == ((-17) : Int))⟩,
   ⟨1, fun _ => .op (.exit 0), fun v => ((r v 4) == (0 : Int))⟩]

example : passes t_mkdir_using_symlink = true := by decide +kernel

/-- `ut_lind_fs_open_empty_directory`, `/repo/src/tests/fs_tests.rs` 3070-3084. -/
def t_open_empty_directory : List Line :=
  [⟨1, fun _ => .op (.openP [] 578#32 511#32), fun v => ((r v 0) == ((-2) : Int))⟩,
   ⟨1, fun _ => .op (.exit 0), fun v => ((r v 1) == (0 : Int))⟩]

example : passes t_open_empty_directory = true := by decide +kernel

/-- `ut_lind_fs_open_nonexisting_parentdirectory_and_file`, `/repo/src/tests/fs_tests.rs` 3087-3110. -/
def t_open_nonexisting_parentdirectory_and_file : List Line :=
  [⟨1, fun _ => .op (.openP [47, 100, 105, 114, 47, 102, 105, 108, 101] 1#32 511#32), fun v => ((r v 0) == ((-2) : Int))⟩,
   ⟨1, fun _ => .op (.openP [47, 100, 105, 114, 47, 102, 105, 108, 101] 64#32 511#32), fun v => ((r v 1) == ((-2) : Int))⟩,
   ⟨1, fun _ => .op (.exit 0), fun v => ((r v 2) == (0 : Int))⟩]

example : passes t_open_nonexisting_parentdirectory_and_file = true := by decide +kernel

/-- `ut_lind_fs_open_existing_parentdirectory_and_nonexisting_file`, `/repo/src/tests/fs_tests.rs` 3113-3147. -/
def t_open_existing_parentdirectory_and_nonexisting_file : List Line :=
  [⟨1, fun _ => .op (.mkdir [47, 100, 105, 114] 511#32), fun v => ((r v 0) == (0 : Int))⟩,
   ⟨1, fun _ => .op (.openP [47, 100, 105, 114, 47, 102, 105, 108, 101] 512#32 511#32), fun v => ((r v 1) == ((-2) : Int))⟩,
   ⟨1, fun _ => .op (.openP [47, 100, 105, 114, 47, 102, 105, 108, 101] 8256#32 511#32), fun v => ((r v 2) == ((-22) : Int))⟩,
   ⟨1, fun _ => .op (.openP [47, 100, 105, 114, 47, 102, 105, 108, 101] 64#32 32767#32), fun v => ((r v 3) == ((-1) : Int))⟩,
   ⟨1, fun _ => .op (.exit 0), fun v => ((r v 4) == (0 : Int))⟩]

example : passes t_open_existing_parentdirectory_and_nonexisting_file = true := by decide +kernel

/-- `ut_lind_fs_open_existing_file_without_flags`, `/repo/src/tests/fs_tests.rs` 3150-3176. -/
def t_open_existing_file_without_flags : List Line :=
  [⟨1, fun _ => .op (.openP [47, 116, 101, 115, 116] 66#32 511#32), fun v => decide ((r v 0) > (0 : Int))⟩,
   ⟨1, fun _ => .op (.openP [47, 116, 101, 115, 116] 0#32 0#32), fun v => decide ((r v 1) > (0 : Int))⟩,
   ⟨1, fun _ => .op (.exit 0), fun v => ((r v 2) == (0 : Int))⟩]

example : passes t_open_existing_file_without_flags = true := by decide +kernel

/-- `ut_lind_fs_open_existing_file_with_flags`, `/repo/src/tests/fs_tests.rs` 3179-3208. -/
def t_open_existing_file_with_flags : List Line :=
  [⟨1, fun _ => .op (.openP [47, 116, 101, 115, 116] 66#32 511#32), fun v => decide ((r v 0) > (0 : Int))⟩,
   ⟨1, fun _ => .op (.openP [47, 116, 101, 115, 116] 192#32 511#32), fun v => ((r v 1) == ((-17) : Int))⟩,
   ⟨1, fun _ => .op (.exit 0), fun v => ((r v 2) == (0 : Int))⟩]

example : passes t_open_existing_file_with_flags = true := by decide +kernel

/-- `ut_lind_fs_open_create_new_file_and_check_link_count`, `/repo/src/tests/fs_tests.rs` 3211-3238. -/
def t_open_create_new_file_and_check_link_count : List Line :=
  [⟨1, fun _ => .op (.openP [47, 110, 101, 119, 102, 105, 108, 101, 46, 116, 120, 116] 66#32 511#32), fun v => decide ((r v 0) > (0 : Int))⟩,
   ⟨1, fun v => .op (.write (r v 0) [104, 101, 108, 108, 111, 32, 116, 104, 101, 114, 101, 33]), fun v => ((r v 1) == (12 : Int))⟩,
   ⟨1, fun _ => .op (.stat [47, 110, 101, 119, 102, 105, 108, 101, 46, 116, 120, 116]), fun v => ((r v 2) == (0 : Int)) && (((v 2).field .nlink) == (1 : Int)) && (((v 2).field .size) == (12 : Int))⟩,
   ⟨1, fun _ => .op (.exit 0), fun v => ((r v 3) == (0 : Int))⟩]

example : passes t_open_create_new_file_and_check_link_count = true := by decide +kernel

/-- `ut_lind_fs_open_existing_file_with_o_trunc_flag`, `/repo/src/tests/fs_tests.rs` 3241-3271. -/
def t_open_existing_file_with_o_trunc_flag : List Line :=
  [⟨1, fun _ => .op (.openP [47, 102, 105, 108, 101, 46, 116, 120, 116] 65#32 511#32), fun v => decide ((r v 0) > (0 : Int))⟩,
   ⟨1, fun v => .op (.write (r v 0) [104, 101, 108, 108, 111, 32, 116, 104, 101, 114, 101, 33]), fun v => ((r v 1) == (12 : Int))⟩,
   ⟨1, fun _ => .op (.stat [47, 102, 105, 108, 101, 46, 116, 120, 116]), fun v => ((r v 2) == (0 : Int)) && (((v 2).field .size) == (12 : Int))⟩,
   ⟨1, fun _ => .op (.openP [47, 102, 105, 108, 101, 46, 116, 120, 116] 513#32 511#32), fun v => decide ((r v 3) > (0 : Int))⟩,
   ⟨1, fun _ => .op (.stat [47, 102, 105, 108, 101, 46, 116, 120, 116]), fun v => ((r v 4) == (0 : Int)) && (((v 4).field .size) == (0 : Int))⟩,
   ⟨1, fun _ => .op (.exit 0), fun v => ((r v 5) == (0 : Int))⟩]

example : passes t_open_existing_file_with_o_trunc_flag = true := by decide +kernel

/-- `ut_lind_fs_open_new_file_with_s_ifchar_flag`, `/repo/src/tests/fs_tests.rs` 3274-3294. -/
def t_open_new_file_with_s_ifchar_flag : List Line :=
  [⟨1, fun _ => .op (.mkdir [47, 116, 101, 115, 116, 100, 105, 114] 511#32), fun v => ((r v 0) == (0 : Int))⟩,
   ⟨1, fun _ => .op (.openP [47, 116, 101, 115, 116, 100, 105, 114, 47, 102, 105, 108, 101] 8256#32 511#32), fun v => ((r v 1) == ((-22) : Int))⟩,
   ⟨1, fun _ => .op (.exit 0), fun v => ((r v 2) == (0 : Int))⟩]

example : passes t_open_new_file_with_s_ifchar_flag = true := by decide +kernel

/-- `ut_lind_fs_creat_new_file`, `/repo/src/tests/fs_tests.rs` 3297-3321. -/
def t_creat_new_file : List Line :=
  [⟨1, fun _ => .creat [47, 99, 114, 101, 97, 116, 70, 105, 108, 101] 511#32, fun v => decide ((r v 0) > (0 : Int))⟩,
   ⟨1, fun _ => .op (.stat [47, 99, 114, 101, 97, 116, 70, 105, 108, 101]), fun v => ((r v 1) == (0 : Int)) && (((v 1).field .size) == (0 : Int))⟩,
   ⟨1, fun _ => .op (.exit 0), fun v => ((r v 2) == (0 : Int))⟩]

example : passes t_creat_new_file = true := by decide +kernel

/-- `ut_lind_fs_creat_truncate_existing_file`, `/repo/src/tests/fs_tests.rs` 3324-3355. -/
def t_creat_truncate_existing_file : List Line :=
  [⟨1, fun _ => .creat [47, 99, 114, 101, 97, 116, 70, 105, 108, 101] 511#32, fun _ => true⟩,
   ⟨1, fun v => .op (.write (r v 0) [104, 101, 108, 108, 111, 32, 116, 104, 101, 114, 101, 33]), fun v => ((r v 1) == (12 : Int))⟩,
   ⟨1, fun _ => .op (.stat [47, 99, 114, 101, 97, 116, 70, 105, 108, 101]), fun v => ((r v 2) == (0 : Int)) && (((v 2).field .size) == (12 : Int))⟩,
   ⟨1, fun _ => .creat [47, 99, 114, 101, 97, 116, 70, 105, 108, 101] 511#32, fun _ => true⟩,
   ⟨1, fun _ => .op (.stat [47, 99, 114, 101, 97, 116, 70, 105, 108, 101]), fun v => ((r v 4) == (0 : Int)) && (((v 4).field .size) == (0 : Int))⟩,
   ⟨1, fun _ => .op (.exit 0), fun v => ((r v 5) == (0 : Int))⟩]

example : passes t_creat_truncate_existing_file = true := by decide +kernel

/-- `ut_lind_fs_read_write_only_fd`, `/repo/src/tests/fs_tests.rs` 3358-3376. -/
def t_read_write_only_fd : List Line :=
  [⟨1, fun _ => .op (.openP [47, 116, 101, 115, 116, 95, 102, 105, 108, 101] 65#32 511#32), fun _ => true⟩,
   ⟨1, fun v => .op (.read (r v 0) 5), fun v => ((r v 1) == ((-9) : Int))⟩,
   ⟨1, fun _ => .op (.exit 0), fun v => ((r v 2) == (0 : Int))⟩]

example : passes t_read_write_only_fd = true := by decide +kernel

/-- `ut_lind_fs_read_from_directory`, `/repo/src/tests/fs_tests.rs` 3379-3401. -/
def t_read_from_directory : List Line :=
  [⟨1, fun _ => .op (.mkdir [47, 116, 101, 115, 116, 95, 100, 105, 114] 511#32), fun v => ((r v 0) == (0 : Int))⟩,
   ⟨1, fun _ => .op (.openP [47, 116, 101, 115, 116, 95, 100, 105, 114] 0#32 511#32), fun _ => true⟩,
   ⟨1, fun v => .op (.read (r v 1) 5), fun v => ((r v 2) == ((-21) : Int))⟩,
   ⟨1, fun _ => .op (.exit 0), fun v => ((r v 3) == (0 : Int))⟩]

example : passes t_read_from_directory = true := by decide +kernel

/-- `ut_lind_fs_read_from_epoll`, `/repo/src/tests/fs_tests.rs` 3404-3423. -/
def t_read_from_epoll : List Line :=
  [⟨1, fun _ => .op (.epollCreate 1), fun v => decide ((r v 0) > (0 : Int))⟩,
   ⟨1, fun v => .op (.read (r v 0) 5), fun v => ((r v 1) == ((-22) : Int))⟩,
   ⟨1, fun _ => .op (.exit 0), fun v => ((r v 2) == (0 : Int))⟩]

example : passes t_read_from_epoll = true := by decide +kernel

/-- `ut_lind_fs_read_from_regular_file`, `/repo/src/tests/fs_tests.rs` 3426-3459. -/
def t_read_from_regular_file : List Line :=
  [⟨1, fun _ => .op (.openP [47, 116, 101, 115, 116, 95, 102, 105, 108, 101] 578#32 511#32), fun v => decide ((r v 0) >= (0 : Int))⟩,
   ⟨1, fun v => .op (.write (r v 0) [104, 101, 108, 108, 111, 32, 116, 104, 101, 114, 101, 33]), fun v => ((r v 1) == (12 : Int))⟩,
   ⟨1, fun v => .op (.lseek (r v 0) 0 0), fun v => ((r v 2) == (0 : Int))⟩,
   ⟨1, fun v => .op (.read (r v 0) 5), fun v => ((r v 3) == (5 : Int)) && ((over (v 3).data ([0, 0, 0, 0, 0])) == ([104, 101, 108, 108, 111] : List UInt8))⟩,
   ⟨1, fun v => .op (.read (r v 0) 7), fun v => ((r v 4) == (7 : Int)) && ((over (v 4).data ([0, 0, 0, 0, 0, 0, 0])) == ([32, 116, 104, 101, 114, 101, 33] : List UInt8))⟩,
   ⟨1, fun _ => .op (.exit 0), fun v => ((r v 5) == (0 : Int))⟩]

example : passes t_read_from_regular_file = true := by decide +kernel

/-- `ut_lind_fs_read_from_chardev_file`, `/repo/src/tests/fs_tests.rs` 3462-3490. -/
def t_read_from_chardev_file : List Line :=
  [⟨1, fun _ => .op (.openP [47, 100, 101, 118, 47, 122, 101, 114, 111] 2#32 511#32), fun _ => true⟩,
   ⟨1, fun v => .op (.read (r v 0) 100), fun v => ((r v 1) == (100 : Int)) && ((over (v 1).data (z 100)) == ([0, 0, 0, 0, 0, 0, 0, 0, 0, 0, 0, 0, 0, 0, 0, 0, 0, 0, 0, 0, 0, 0, 0, 0, 0, 0, 0, 0, 0, 0, 0, 0, 0, 0, 0, 0, 0, 0, 0, 0, 0, 0, 0, 0, 0, 0, 0, 0, 0, 0, 0, 0, 0, 0, 0, 0, 0, 0, 0, 0, 0, 0, 0, 0, 0, 0, 0, 0, 0, 0, 0, 0, 0, 0, 0, 0, 0, 0, 0, 0, 0, 0, 0, 0, 0, 0, 0, 0, 0, 0, 0, 0, 0, 0, 0, 0, 0, 0, 0, 0] : List UInt8))⟩,
   ⟨1, fun v => .op (.close (r v 0)), fun v => ((r v 2) == (0 : Int))⟩,
   ⟨1, fun _ => .op (.exit 0), fun v => ((r v 3) == (0 : Int))⟩]

example : passes t_read_from_chardev_file = true := by decide +kernel

/-- `ut_lind_fs_read_from_pipe_blocking_mode`, `/repo/src/tests/fs_tests.rs` 3528-3567. -/
def t_read_from_pipe_blocking_mode : List Line :=
  [⟨1, fun _ => .op (.pipe2 0#32), fun v => ((r v 0) == (0 : Int))⟩,
   ⟨1, fun v => .op (.write ((v 0).pair.2 : Int) [84, 101, 115, 116, 105, 110, 103]), fun v => ((r v 1) == (7 : Int))⟩,
   ⟨1, fun v => .op (.read ((v 0).pair.1 : Int) 7), fun v => ((r v 2) == (7 : Int)) && ((over (v 2).data ([0, 0, 0, 0, 0, 0, 0])) == ([84, 101, 115, 116, 105, 110, 103] : List UInt8))⟩,
   ⟨1, fun v => .op (.close ((v 0).pair.1 : Int)), fun v => ((r v 3) == (0 : Int))⟩,
   ⟨1, fun v => .op (.close ((v 0).pair.2 : Int)), fun v => ((r v 4) == (0 : Int))⟩,
   ⟨1, fun _ => .op (.exit 0), fun v => ((r v 5) == (0 : Int))⟩]

example : passes t_read_from_pipe_blocking_mode = true := by decide +kernel

/-- `ut_lind_fs_read_from_pipe_nonblocking_mode`, `/repo/src/tests/fs_tests.rs` 3570-3618. -/
def t_read_from_pipe_nonblocking_mode : List Line :=
  [⟨1, fun _ => .op (.pipe2 0#32), fun v => ((r v 0) == (0 : Int))⟩,
   ⟨1, fun v => .op (.fcntl ((v 0).pair.1 : Int) 4 2048#32), fun v => ((r v 1) == (0 : Int))⟩,
   ⟨1, fun v => .op (.read ((v 0).pair.1 : Int) 7), fun v => ((r v 2) == ((-11) : Int))⟩,
   ⟨1, fun v => .op (.write ((v 0).pair.2 : Int) [84, 101, 115, 116, 105, 110, 103]), fun v => ((r v 3) == (7 : Int))⟩,
   ⟨1, fun v => .op (.read ((v 0).pair.1 : Int) 7), fun v => ((r v 4) == (7 : Int)) && ((over (v 4).data ((over (v 2).data ([0, 0, 0, 0, 0, 0, 0])))) == ([84, 101, 115, 116, 105, 110, 103] : List UInt8))⟩,
   ⟨1, fun v => .op (.close ((v 0).pair.1 : Int)), fun v => ((r v 5) == (0 : Int))⟩,
   ⟨1, fun v => .op (.close ((v 0).pair.2 : Int)), fun v => ((r v 6) == (0 : Int))⟩,
   ⟨1, fun _ => .op (.exit 0), fun v => ((r v 7) == (0 : Int))⟩]

example : passes t_read_from_pipe_nonblocking_mode = true := by decide +kernel

end Verif.Conform
