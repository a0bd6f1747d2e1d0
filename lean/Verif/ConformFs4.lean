import Verif.Conform

/-!
# The tests of `/repo/src/tests/fs_tests.rs` on the model, part 4 of 4

Transcribed by a script.  `v k` is what call number `k` gave (counted from 0), `r v k` the number it returned.  `socketpair` is two
calls of `socket` here; after `exec` the calls the test makes through the old process are made by the new one.
-/

namespace Verif.Conform
open Verif.Fs Verif.Kernel Verif.Path Verif.Misc

/-- `ut_lind_fs_pread_write_only_fd`, `/repo/src/tests/fs_tests.rs` 3621-3639. -/
def t_pread_write_only_fd : List Line :=
  [⟨1, fun _ => .op (.openP [47, 116, 101, 115, 116, 95, 102, 105, 108, 101] 65#32 511#32), fun _ => true⟩,
   ⟨1, fun v => .op (.pread (r v 0) 5 0), fun v => ((r v 1) == ((-9) : Int))⟩,
   ⟨1, fun _ => .op (.exit 0), fun v => ((r v 2) == (0 : Int))⟩]

example : passes t_pread_write_only_fd = true := by decide +kernel

/-- `ut_lind_fs_pread_from_file`, `/repo/src/tests/fs_tests.rs` 3642-3674. -/
def t_pread_from_file : List Line :=
  [⟨1, fun _ => .op (.openP [47, 116, 101, 115, 116, 95, 102, 105, 108, 101] 578#32 511#32), fun v => decide ((r v 0) >= (0 : Int))⟩,
   ⟨1, fun v => .op (.write (r v 0) [104, 101, 108, 108, 111, 32, 116, 104, 101, 114, 101, 33]), fun v => ((r v 1) == (12 : Int))⟩,
   ⟨1, fun v => .op (.lseek (r v 0) 0 0), fun v => ((r v 2) == (0 : Int))⟩,
   ⟨1, fun v => .op (.pread (r v 0) 5 0), fun v => ((r v 3) == (5 : Int)) && ((over (v 3).data ([0, 0, 0, 0, 0])) == ([104, 101, 108, 108, 111] : List UInt8))⟩,
   ⟨1, fun v => .op (.pread (r v 0) 5 6), fun v => ((r v 4) == (5 : Int)) && ((over (v 4).data ([0, 0, 0, 0, 0])) == ([116, 104, 101, 114, 101] : List UInt8))⟩,
   ⟨1, fun _ => .op (.exit 0), fun v => ((r v 5) == (0 : Int))⟩]

example : passes t_pread_from_file = true := by decide +kernel

/-- `ut_lind_fs_pread_from_directory`, `/repo/src/tests/fs_tests.rs` 3677-3696. -/
def t_pread_from_directory : List Line :=
  [⟨1, fun _ => .op (.mkdir [47, 116, 101, 115, 116, 95, 100, 105, 114] 511#32), fun v => ((r v 0) == (0 : Int))⟩,
   ⟨1, fun _ => .op (.openP [47, 116, 101, 115, 116, 95, 100, 105, 114] 578#32 511#32), fun v => decide ((r v 1) >= (0 : Int))⟩,
   ⟨1, fun v => .op (.pread (r v 1) 5 0), fun v => ((r v 2) == ((-21) : Int))⟩,
   ⟨1, fun _ => .op (.exit 0), fun v => ((r v 3) == (0 : Int))⟩]

example : passes t_pread_from_directory = true := by decide +kernel

/-- `ut_lind_fs_pread_invalid_types`, `/repo/src/tests/fs_tests.rs` 3699-3738. -/
def t_pread_invalid_types : List Line :=
  [⟨1, fun _ => .op (.pipe2 0#32), fun v => ((r v 0) == (0 : Int))⟩,
   ⟨1, fun v => .op (.pread ((v 0).pair.1 : Int) 5 0), fun v => ((r v 1) == ((-29) : Int))⟩,
   ⟨1, fun _ => .op (.socket false false), fun _ => true⟩,
   ⟨1, fun _ => .op (.socket false false), fun v => ((if r v 2 < 0 || r v 3 < 0 then (-1) else 0) == (0 : Int))⟩,
   ⟨1, fun v => .op (.pread (r v 3) 4 0), fun v => ((r v 4) == ((-29) : Int))⟩,
   ⟨1, fun _ => .op (.epollCreate 1), fun _ => true⟩,
   ⟨1, fun v => .op (.pread (r v 5) 5 0), fun v => ((r v 6) == ((-29) : Int))⟩,
   ⟨1, fun _ => .op (.exit 0), fun v => ((r v 7) == (0 : Int))⟩]

example : passes t_pread_invalid_types = true := by decide +kernel

/-- `ut_lind_fs_write_read_only_fd`, `/repo/src/tests/fs_tests.rs` 3741-3761. -/
def t_write_read_only_fd : List Line :=
  [⟨1, fun _ => .op (.openP [47, 116, 101, 115, 116, 95, 102, 105, 108, 101] 64#32 511#32), fun v => decide ((r v 0) >= (0 : Int))⟩,
   ⟨1, fun v => .op (.write (r v 0) [104, 101, 108, 108, 111]), fun v => ((r v 1) == ((-9) : Int))⟩,
   ⟨1, fun _ => .op (.exit 0), fun v => ((r v 2) == (0 : Int))⟩]

example : passes t_write_read_only_fd = true := by decide +kernel

/-- `ut_lind_fs_write_to_directory`, `/repo/src/tests/fs_tests.rs` 3764-3786. -/
def t_write_to_directory : List Line :=
  [⟨1, fun _ => .op (.mkdir [47, 116, 101, 115, 116, 95, 100, 105, 114] 511#32), fun v => ((r v 0) == (0 : Int))⟩,
   ⟨1, fun _ => .op (.openP [47, 116, 101, 115, 116, 95, 100, 105, 114] 1#32 511#32), fun _ => true⟩,
   ⟨1, fun v => .op (.write (r v 1) [104, 101, 108, 108, 111]), fun v => ((r v 2) == ((-21) : Int))⟩,
   ⟨1, fun _ => .op (.exit 0), fun v => ((r v 3) == (0 : Int))⟩]

example : passes t_write_to_directory = true := by decide +kernel

/-- `ut_lind_fs_write_to_epoll`, `/repo/src/tests/fs_tests.rs` 3789-3808. -/
def t_write_to_epoll : List Line :=
  [⟨1, fun _ => .op (.epollCreate 1), fun v => decide ((r v 0) > (0 : Int))⟩,
   ⟨1, fun v => .op (.write (r v 0) [104, 101, 108, 108, 111]), fun v => ((r v 1) == ((-22) : Int))⟩,
   ⟨1, fun _ => .op (.exit 0), fun v => ((r v 2) == (0 : Int))⟩]

example : passes t_write_to_epoll = true := by decide +kernel

/-- `ut_lind_fs_write_to_regular_file`, `/repo/src/tests/fs_tests.rs` 3811-3852. -/
def t_write_to_regular_file : List Line :=
  [⟨1, fun _ => .op (.openP [47, 116, 101, 115, 116, 95, 102, 105, 108, 101] 578#32 511#32), fun v => decide ((r v 0) >= (0 : Int))⟩,
   ⟨1, fun v => .op (.write (r v 0) [104, 101, 108, 108, 111]), fun v => ((r v 1) == (5 : Int))⟩,
   ⟨1, fun v => .op (.fstat (r v 0)), fun v => ((r v 2) == (0 : Int)) && (((v 2).field .size) == (5 : Int))⟩,
   ⟨1, fun v => .op (.write (r v 0) [32, 116, 104, 101, 114, 101, 33]), fun v => ((r v 3) == (7 : Int))⟩,
   ⟨1, fun v => .op (.fstat (r v 0)), fun v => ((r v 4) == (0 : Int)) && (((v 4).field .size) == (12 : Int))⟩,
   ⟨1, fun _ => .op (.exit 0), fun v => ((r v 5) == (0 : Int))⟩]

example : passes t_write_to_regular_file = true := by decide +kernel

/-- `ut_lind_fs_write_to_chardev_file`, `/repo/src/tests/fs_tests.rs` 3855-3875. -/
def t_write_to_chardev_file : List Line :=
  [⟨1, fun _ => .op (.openP [47, 100, 101, 118, 47, 110, 117, 108, 108] 2#32 511#32), fun _ => true⟩,
   ⟨1, fun v => .op (.write (r v 0) [48, 48, 48, 48, 48, 48, 48, 48, 48, 48, 48, 48, 48, 48, 48, 48, 48, 48, 48, 48, 48, 48, 48, 48, 48, 48, 48, 48, 48, 48, 48, 48, 48, 48, 48, 48, 48, 48, 48, 48, 48, 48, 48, 48, 48, 48, 48, 48, 48, 48, 48, 48, 48, 48, 48, 48, 48, 48, 48, 48, 48, 48, 48, 48, 48, 48, 48, 48, 48, 48, 48, 48, 48, 48, 48, 48, 48, 48, 48, 48, 48, 48, 48, 48, 48, 48, 48, 48, 48, 48, 48, 48, 48, 48, 48, 48, 48, 48, 48, 48]), fun v => ((r v 1) == (100 : Int))⟩,
   ⟨1, fun v => .op (.close (r v 0)), fun v => ((r v 2) == (0 : Int))⟩,
   ⟨1, fun _ => .op (.exit 0), fun v => ((r v 3) == (0 : Int))⟩]

example : passes t_write_to_chardev_file = true := by decide +kernel

/-- `ut_lind_fs_pwrite_read_only_fd`, `/repo/src/tests/fs_tests.rs` 3916-3936. -/
def t_pwrite_read_only_fd : List Line :=
  [⟨1, fun _ => .op (.openP [47, 116, 101, 115, 116, 95, 102, 105, 108, 101] 64#32 511#32), fun v => decide ((r v 0) >= (0 : Int))⟩,
   ⟨1, fun v => .op (.pwrite (r v 0) [104, 101, 108, 108, 111] 0), fun v => ((r v 1) == ((-9) : Int))⟩,
   ⟨1, fun _ => .op (.exit 0), fun v => ((r v 2) == (0 : Int))⟩]

example : passes t_pwrite_read_only_fd = true := by decide +kernel

/-- `ut_lind_fs_pwrite_to_file`, `/repo/src/tests/fs_tests.rs` 3939-3971. -/
def t_pwrite_to_file : List Line :=
  [⟨1, fun _ => .op (.openP [47, 116, 101, 115, 116, 95, 102, 105, 108, 101] 578#32 511#32), fun v => decide ((r v 0) >= (0 : Int))⟩,
   ⟨1, fun v => .op (.pwrite (r v 0) [104, 101, 108, 108, 111] 0), fun v => ((r v 1) == (5 : Int))⟩,
   ⟨1, fun v => .op (.pwrite (r v 0) [116, 104, 101, 114, 101, 33] 6), fun v => ((r v 2) == (6 : Int))⟩,
   ⟨1, fun v => .op (.pread (r v 0) 12 0), fun v => ((r v 3) == (12 : Int)) && ((over (v 3).data ([0, 0, 0, 0, 0, 0, 0, 0, 0, 0, 0, 0])) == ([104, 101, 108, 108, 111, 0, 116, 104, 101, 114, 101, 33] : List UInt8))⟩,
   ⟨1, fun _ => .op (.exit 0), fun v => ((r v 4) == (0 : Int))⟩]

example : passes t_pwrite_to_file = true := by decide +kernel

/-- `ut_lind_fs_pwrite_to_directory`, `/repo/src/tests/fs_tests.rs` 3974-3996. -/
def t_pwrite_to_directory : List Line :=
  [⟨1, fun _ => .op (.mkdir [47, 116, 101, 115, 116, 95, 100, 105, 114] 511#32), fun v => ((r v 0) == (0 : Int))⟩,
   ⟨1, fun _ => .op (.openP [47, 116, 101, 115, 116, 95, 100, 105, 114] 1#32 511#32), fun _ => true⟩,
   ⟨1, fun v => .op (.pwrite (r v 1) [104, 101, 108, 108, 111] 0), fun v => ((r v 2) == ((-21) : Int))⟩,
   ⟨1, fun _ => .op (.exit 0), fun v => ((r v 3) == (0 : Int))⟩]

example : passes t_pwrite_to_directory = true := by decide +kernel

/-- `ut_lind_fs_pwrite_invalid_types`, `/repo/src/tests/fs_tests.rs` 3999-4039. -/
def t_pwrite_invalid_types : List Line :=
  [⟨1, fun _ => .op (.pipe2 0#32), fun v => ((r v 0) == (0 : Int))⟩,
   ⟨1, fun v => .op (.pwrite ((v 0).pair.2 : Int) [104, 101, 108, 108, 111] 0), fun v => ((r v 1) == ((-29) : Int))⟩,
   ⟨1, fun _ => .op (.socket false false), fun _ => true⟩,
   ⟨1, fun _ => .op (.socket false false), fun v => ((if r v 2 < 0 || r v 3 < 0 then (-1) else 0) == (0 : Int))⟩,
   ⟨1, fun v => .op (.pwrite (r v 3) [104, 101, 108, 108] 0), fun v => ((r v 4) == ((-29) : Int))⟩,
   ⟨1, fun _ => .op (.epollCreate 1), fun _ => true⟩,
   ⟨1, fun v => .op (.pwrite (r v 5) [104, 101, 108, 108, 111] 0), fun v => ((r v 6) == ((-29) : Int))⟩,
   ⟨1, fun _ => .op (.exit 0), fun v => ((r v 7) == (0 : Int))⟩]

example : passes t_pwrite_invalid_types = true := by decide +kernel

/-- `ut_lind_fs_pwrite_to_chardev_file`, `/repo/src/tests/fs_tests.rs` 4042-4062. -/
def t_pwrite_to_chardev_file : List Line :=
  [⟨1, fun _ => .op (.openP [47, 100, 101, 118, 47, 110, 117, 108, 108] 2#32 511#32), fun _ => true⟩,
   ⟨1, fun v => .op (.pwrite (r v 0) [48, 48, 48, 48, 48, 48, 48, 48, 48, 48, 48, 48, 48, 48, 48, 48, 48, 48, 48, 48, 48, 48, 48, 48, 48, 48, 48, 48, 48, 48, 48, 48, 48, 48, 48, 48, 48, 48, 48, 48, 48, 48, 48, 48, 48, 48, 48, 48, 48, 48, 48, 48, 48, 48, 48, 48, 48, 48, 48, 48, 48, 48, 48, 48, 48, 48, 48, 48, 48, 48, 48, 48, 48, 48, 48, 48, 48, 48, 48, 48, 48, 48, 48, 48, 48, 48, 48, 48, 48, 48, 48, 48, 48, 48, 48, 48, 48, 48, 48, 48] 0), fun v => ((r v 1) == (100 : Int))⟩,
   ⟨1, fun v => .op (.close (r v 0)), fun v => ((r v 2) == (0 : Int))⟩,
   ⟨1, fun _ => .op (.exit 0), fun v => ((r v 3) == (0 : Int))⟩]

example : passes t_pwrite_to_chardev_file = true := by decide +kernel

/-- `ut_lind_fs_lseek_on_file`, `/repo/src/tests/fs_tests.rs` 4112-4127. -/
def t_lseek_on_file : List Line :=
  [⟨1, fun _ => .op (.openP [47, 116, 101, 115, 116, 95, 102, 105, 108, 101] 65#32 511#32), fun v => decide ((r v 0) >= (0 : Int))⟩,
   ⟨1, fun v => .op (.lseek (r v 0) 10 0), fun v => ((r v 1) == (10 : Int))⟩,
   ⟨1, fun _ => .op (.exit 0), fun v => ((r v 2) == (0 : Int))⟩]

example : passes t_lseek_on_file = true := by decide +kernel

/-- `ut_lind_fs_lseek_on_directory`, `/repo/src/tests/fs_tests.rs` 4130-4148. -/
def t_lseek_on_directory : List Line :=
  [⟨1, fun _ => .op (.mkdir [47, 116, 101, 115, 116, 95, 100, 105, 114] 511#32), fun v => ((r v 0) == (0 : Int))⟩,
   ⟨1, fun _ => .op (.openP [47, 116, 101, 115, 116, 95, 100, 105, 114] 0#32 511#32), fun v => decide ((r v 1) >= (0 : Int))⟩,
   ⟨1, fun v => .op (.lseek (r v 1) 1 0), fun v => ((r v 2) == (1 : Int))⟩,
   ⟨1, fun _ => .op (.exit 0), fun v => ((r v 3) == (0 : Int))⟩]

example : passes t_lseek_on_directory = true := by decide +kernel

/-- `ut_lind_fs_lseek_invalid_whence`, `/repo/src/tests/fs_tests.rs` 4151-4171. -/
def t_lseek_invalid_whence : List Line :=
  [⟨1, fun _ => .op (.openP [47, 116, 101, 115, 116, 95, 102, 105, 108, 101] 66#32 511#32), fun v => decide ((r v 0) >= (0 : Int))⟩,
   ⟨1, fun v => .op (.lseek (r v 0) 10 999), fun v => ((r v 1) == ((-22) : Int))⟩,
   ⟨1, fun _ => .op (.exit 0), fun v => ((r v 2) == (0 : Int))⟩]

example : passes t_lseek_invalid_whence = true := by decide +kernel

/-- `ut_lind_fs_lseek_beyond_file_size`, `/repo/src/tests/fs_tests.rs` 4174-4196. -/
def t_lseek_beyond_file_size : List Line :=
  [⟨1, fun _ => .op (.openP [47, 116, 101, 115, 116, 95, 102, 105, 108, 101] 66#32 511#32), fun v => decide ((r v 0) >= (0 : Int))⟩,
   ⟨1, fun v => .op (.write (r v 0) [104, 101, 108, 108, 111]), fun v => ((r v 1) == (5 : Int))⟩,
   ⟨1, fun v => .op (.lseek (r v 0) 10 2), fun v => ((r v 2) == (15 : Int))⟩,
   ⟨1, fun _ => .op (.exit 0), fun v => ((r v 3) == (0 : Int))⟩]

example : passes t_lseek_beyond_file_size = true := by decide +kernel

/-- `ut_lind_fs_lseek_before_start_of_file`, `/repo/src/tests/fs_tests.rs` 4199-4228. -/
def t_lseek_before_start_of_file : List Line :=
  [⟨1, fun _ => .op (.openP [47, 116, 101, 115, 116, 95, 102, 105, 108, 101] 66#32 511#32), fun v => decide ((r v 0) >= (0 : Int))⟩,
   ⟨1, fun v => .op (.lseek (r v 0) (-10) 0), fun v => ((r v 1) == ((-22) : Int))⟩,
   ⟨1, fun v => .op (.lseek (r v 0) (-10) 1), fun v => ((r v 2) == ((-22) : Int))⟩,
   ⟨1, fun _ => .op (.exit 0), fun v => ((r v 3) == (0 : Int))⟩]

example : passes t_lseek_before_start_of_file = true := by decide +kernel

/-- `ut_lind_fs_lseek_on_pipe`, `/repo/src/tests/fs_tests.rs` 4231-4251. -/
def t_lseek_on_pipe : List Line :=
  [⟨1, fun _ => .op (.pipe2 0#32), fun v => ((r v 0) == (0 : Int))⟩,
   ⟨1, fun v => .op (.lseek ((v 0).pair.1 : Int) 10 0), fun v => ((r v 1) == ((-29) : Int))⟩,
   ⟨1, fun _ => .op (.exit 0), fun v => ((r v 2) == (0 : Int))⟩]

example : passes t_lseek_on_pipe = true := by decide +kernel

/-- `ut_lind_fs_lseek_on_chardev`, `/repo/src/tests/fs_tests.rs` 4254-4270. -/
def t_lseek_on_chardev : List Line :=
  [⟨1, fun _ => .op (.openP [47, 100, 101, 118, 47, 110, 117, 108, 108] 2#32 511#32), fun _ => true⟩,
   ⟨1, fun v => .op (.lseek (r v 0) 10 0), fun v => ((r v 1) == (0 : Int))⟩,
   ⟨1, fun _ => .op (.exit 0), fun v => ((r v 2) == (0 : Int))⟩]

example : passes t_lseek_on_chardev = true := by decide +kernel

/-- `ut_lind_fs_lseek_on_epoll`, `/repo/src/tests/fs_tests.rs` 4273-4292. -/
def t_lseek_on_epoll : List Line :=
  [⟨1, fun _ => .op (.epollCreate 1), fun v => decide ((r v 0) > (0 : Int))⟩,
   ⟨1, fun v => .op (.lseek (r v 0) 10 0), fun v => ((r v 1) == ((-29) : Int))⟩,
   ⟨1, fun _ => .op (.exit 0), fun v => ((r v 2) == (0 : Int))⟩]

example : passes t_lseek_on_epoll = true := by decide +kernel

/-- `ut_lind_fs_close_regular_file`, `/repo/src/tests/fs_tests.rs` 4295-4318. -/
def t_close_regular_file : List Line :=
  [⟨1, fun _ => .op (.openP [47, 116, 101, 115, 116, 95, 102, 105, 108, 101] 66#32 511#32), fun v => decide ((r v 0) >= (0 : Int))⟩,
   ⟨1, fun v => .op (.write (r v 0) [104, 101, 108, 108, 111]), fun v => ((r v 1) == (5 : Int))⟩,
   ⟨1, fun v => .op (.close (r v 0)), fun v => ((r v 2) == (0 : Int))⟩,
   ⟨1, fun v => .op (.close (r v 0)), fun v => ((r v 3) == ((-9) : Int))⟩,
   ⟨1, fun _ => .op (.exit 0), fun v => ((r v 4) == (0 : Int))⟩]

example : passes t_close_regular_file = true := by decide +kernel

/-- `ut_lind_fs_close_directory`, `/repo/src/tests/fs_tests.rs` 4321-4343. -/
def t_close_directory : List Line :=
  [⟨1, fun _ => .op (.mkdir [47, 116, 101, 115, 116, 95, 100, 105, 114] 511#32), fun v => ((r v 0) == (0 : Int))⟩,
   ⟨1, fun _ => .op (.openP [47, 116, 101, 115, 116, 95, 100, 105, 114] 0#32 511#32), fun v => decide ((r v 1) >= (0 : Int))⟩,
   ⟨1, fun v => .op (.close (r v 1)), fun v => ((r v 2) == (0 : Int))⟩,
   ⟨1, fun v => .op (.close (r v 1)), fun v => ((r v 3) == ((-9) : Int))⟩,
   ⟨1, fun _ => .op (.exit 0), fun v => ((r v 4) == (0 : Int))⟩]

example : passes t_close_directory = true := by decide +kernel

/-- `ut_lind_fs_close_socket`, `/repo/src/tests/fs_tests.rs` 4346-4371. -/
def t_close_socket : List Line :=
  [⟨1, fun _ => .op (.socket false false), fun _ => true⟩,
   ⟨1, fun _ => .op (.socket false false), fun v => ((if r v 0 < 0 || r v 1 < 0 then (-1) else 0) == (0 : Int))⟩,
   ⟨1, fun v => .op (.close (r v 0)), fun v => ((r v 2) == (0 : Int))⟩,
   ⟨1, fun v => .op (.close (r v 1)), fun v => ((r v 3) == (0 : Int))⟩,
   ⟨1, fun v => .op (.close (r v 0)), fun v => ((r v 4) == ((-9) : Int))⟩,
   ⟨1, fun v => .op (.close (r v 1)), fun v => ((r v 5) == ((-9) : Int))⟩,
   ⟨1, fun _ => .op (.exit 0), fun v => ((r v 6) == (0 : Int))⟩]

example : passes t_close_socket = true := by decide +kernel

/-- `ut_lind_fs_close_pipe`, `/repo/src/tests/fs_tests.rs` 4374-4413. -/
def t_close_pipe : List Line :=
  [⟨1, fun _ => .op (.pipe2 0#32), fun v => ((r v 0) == (0 : Int))⟩,
   ⟨1, fun v => .op (.write ((v 0).pair.2 : Int) [84, 101, 115, 116, 105, 110, 103]), fun v => ((r v 1) == (7 : Int))⟩,
   ⟨1, fun v => .op (.read ((v 0).pair.1 : Int) 7), fun v => ((r v 2) == (7 : Int)) && ((over (v 2).data ([0, 0, 0, 0, 0, 0, 0])) == ([84, 101, 115, 116, 105, 110, 103] : List UInt8))⟩,
   ⟨1, fun v => .op (.close ((v 0).pair.1 : Int)), fun v => ((r v 3) == (0 : Int))⟩,
   ⟨1, fun v => .op (.close ((v 0).pair.2 : Int)), fun v => ((r v 4) == (0 : Int))⟩,
   ⟨1, fun v => .op (.close ((v 0).pair.1 : Int)), fun v => ((r v 5) == ((-9) : Int))⟩,
   ⟨1, fun v => .op (.close ((v 0).pair.2 : Int)), fun v => ((r v 6) == ((-9) : Int))⟩,
   ⟨1, fun _ => .op (.exit 0), fun v => ((r v 7) == (0 : Int))⟩]

example : passes t_close_pipe = true := by decide +kernel

/-- `ut_lind_fs_close_chardev`, `/repo/src/tests/fs_tests.rs` 4416-4436. -/
def t_close_chardev : List Line :=
  [⟨1, fun _ => .op (.openP [47, 100, 101, 118, 47, 122, 101, 114, 111] 2#32 511#32), fun v => decide ((r v 0) >= (0 : Int))⟩,
   ⟨1, fun v => .op (.close (r v 0)), fun v => ((r v 1) == (0 : Int))⟩,
   ⟨1, fun v => .op (.close (r v 0)), fun v => ((r v 2) == ((-9) : Int))⟩,
   ⟨1, fun _ => .op (.exit 0), fun v => ((r v 3) == (0 : Int))⟩]

example : passes t_close_chardev = true := by decide +kernel

/-- `ut_lind_fs_stat_syscall_tests`, `/repo/src/tests/fs_tests.rs` 4439-4494. -/
def t_stat_syscall_tests : List Line :=
  [⟨1, fun _ => .op (.stat [110, 111, 110, 95, 101, 120, 105, 115, 116, 101, 110, 116, 95, 102, 105, 108, 101, 95, 112, 97, 116, 104]), fun v => ((r v 0) == ((-2) : Int))⟩,
   ⟨1, fun _ => .op (.stat [47, 116, 109, 112]), fun v => ((r v 1) == (0 : Int))⟩,
   ⟨1, fun _ => .creat [47, 116, 109, 112, 47, 103, 101, 110, 101, 114, 105, 99] 511#32, fun v => decide ((r v 2) > (0 : Int))⟩,
   ⟨1, fun _ => .op (.stat [47, 116, 109, 112, 47, 103, 101, 110, 101, 114, 105, 99]), fun v => ((r v 3) == (0 : Int))⟩,
   ⟨1, fun _ => .op (.mknod [47, 99, 104, 97, 114, 100, 101, 118] 8703#32 259#64), fun v => ((r v 4) == (0 : Int))⟩,
   ⟨1, fun _ => .op (.stat [47, 99, 104, 97, 114, 100, 101, 118]), fun v => ((r v 5) == (0 : Int))⟩,
   ⟨1, fun _ => .op (.socket false false), fun v => decide ((r v 6) > (0 : Int))⟩,
   ⟨1, fun v => .op (.close (r v 6)), fun v => ((r v 7) == (0 : Int))⟩,
   ⟨1, fun _ => .op (.unlink [47, 115, 111, 99, 107, 101, 116, 46, 115, 111, 99, 107]), fun _ => true⟩]

example : passes t_stat_syscall_tests = true := by decide +kernel

/-- `ut_lind_fs_fstat_syscall_tests`, `/repo/src/tests/fs_tests.rs` 4497-4566. -/
def t_fstat_syscall_tests : List Line :=
  [⟨1, fun _ => .op (.fstat 1000), fun v => ((r v 0) == ((-9) : Int))⟩,
   ⟨1, fun _ => .op (.openP [47, 116, 109, 112] 65536#32 511#32), fun v => decide ((r v 1) > (0 : Int))⟩,
   ⟨1, fun v => .op (.fstat (r v 1)), fun v => ((r v 2) == (0 : Int))⟩,
   ⟨1, fun v => .op (.close (r v 1)), fun v => ((r v 3) == (0 : Int))⟩,
   ⟨1, fun _ => .creat [47, 116, 109, 112, 47, 103, 101, 110, 101, 114, 105, 99] 511#32, fun v => decide ((r v 4) > (0 : Int))⟩,
   ⟨1, fun v => .op (.fstat (r v 4)), fun v => ((r v 5) == (0 : Int))⟩,
   ⟨1, fun _ => .op (.mknod [47, 99, 104, 97, 114, 100, 101, 118] 8703#32 259#64), fun v => ((r v 6) == (0 : Int))⟩,
   ⟨1, fun _ => .op (.openP [47, 99, 104, 97, 114, 100, 101, 118] 0#32 511#32), fun v => decide ((r v 7) > (0 : Int))⟩,
   ⟨1, fun v => .op (.fstat (r v 7)), fun v => ((r v 8) == (0 : Int))⟩,
   ⟨1, fun v => .op (.close (r v 7)), fun v => ((r v 9) == (0 : Int))⟩,
   ⟨1, fun _ => .op (.socket false false), fun v => decide ((r v 10) > (0 : Int))⟩,
   ⟨1, fun v => .op (.fstat (r v 10)), fun v => ((r v 11) == ((-95) : Int))⟩,
   ⟨1, fun v => .op (.close (r v 10)), fun v => ((r v 12) == (0 : Int))⟩,
   ⟨1, fun _ => .op (.unlink [47, 115, 111, 99, 107, 101, 116, 46, 115, 111, 99, 107]), fun _ => true⟩]

example : passes t_fstat_syscall_tests = true := by decide +kernel

/-- `ut_lind_fs_statfs_syscall_tests`, `/repo/src/tests/fs_tests.rs` 4569-4592. -/
def t_statfs_syscall_tests : List Line :=
  [⟨1, fun _ => .statfs [110, 111, 110, 95, 101, 120, 105, 115, 116, 101, 110, 116, 95, 102, 105, 108, 101, 95, 112, 97, 116, 104], fun v => ((r v 0) == ((-2) : Int))⟩,
   ⟨1, fun _ => .creat [47, 116, 109, 112, 47, 103, 101, 110, 101, 114, 105, 99] 511#32, fun v => decide ((r v 1) > (0 : Int))⟩,
   ⟨1, fun _ => .statfs [47, 116, 109, 112, 47, 103, 101, 110, 101, 114, 105, 99], fun v => ((r v 2) == (0 : Int))⟩]

example : passes t_statfs_syscall_tests = true := by decide +kernel

/-- `ut_lind_fs_fstatfs_syscall_tests`, `/repo/src/tests/fs_tests.rs` 4595-4643. -/
def t_fstatfs_syscall_tests : List Line :=
  [⟨1, fun _ => .fstatfs 1000, fun v => ((r v 0) == ((-9) : Int))⟩,
   ⟨1, fun _ => .creat [47, 116, 109, 112, 47, 103, 101, 110, 101, 114, 105, 99] 511#32, fun v => decide ((r v 1) > (0 : Int))⟩,
   ⟨1, fun v => .fstatfs (r v 1), fun v => ((r v 2) == (0 : Int))⟩,
   ⟨1, fun _ => .op (.socket false false), fun v => decide ((r v 3) > (0 : Int))⟩,
   ⟨1, fun v => .fstatfs (r v 3), fun v => ((r v 4) == ((-9) : Int))⟩,
   ⟨1, fun v => .op (.close (r v 3)), fun v => ((r v 5) == (0 : Int))⟩,
   ⟨1, fun _ => .op (.unlink [47, 115, 111, 99, 107, 101, 116, 46, 115, 111, 99, 107]), fun _ => true⟩]

example : passes t_fstatfs_syscall_tests = true := by decide +kernel

/-- `ut_lind_fs_access_syscall_tests`, `/repo/src/tests/fs_tests.rs` 4646-4676. -/
def t_access_syscall_tests : List Line :=
  [⟨1, fun _ => .op (.access [110, 111, 110, 95, 101, 120, 105, 115, 116, 101, 110, 116, 95, 102, 105, 108, 101, 95, 112, 97, 116, 104] 511#32), fun v => ((r v 0) == ((-2) : Int))⟩,
   ⟨1, fun _ => .creat [47, 116, 109, 112, 47, 103, 101, 110, 101, 114, 105, 99] 511#32, fun v => decide ((r v 1) > (0 : Int))⟩,
   ⟨1, fun _ => .op (.access [47, 116, 109, 112, 47, 103, 101, 110, 101, 114, 105, 99] 511#32), fun v => ((r v 2) == (0 : Int))⟩,
   ⟨1, fun _ => .op (.chmod [47, 116, 109, 112, 47, 103, 101, 110, 101, 114, 105, 99] 32#32), fun v => ((r v 3) == (0 : Int))⟩,
   ⟨1, fun _ => .op (.access [47, 116, 109, 112, 47, 103, 101, 110, 101, 114, 105, 99] 511#32), fun v => ((r v 4) == ((-13) : Int))⟩]

example : passes t_access_syscall_tests = true := by decide +kernel

/-- `ut_lind_fs_rename_syscall_tests`, `/repo/src/tests/fs_tests.rs` 4679-4724. -/
def t_rename_syscall_tests : List Line :=
  [⟨1, fun _ => .op (.rename [110, 111, 110, 95, 101, 120, 105, 115, 116, 101, 110, 116, 95, 102, 105, 108, 101, 95, 112, 97, 116, 104] [110, 111, 110, 45, 101, 120, 105, 115, 116, 101, 110, 116, 45, 116, 97, 114, 103, 101, 116]), fun v => ((r v 0) == ((-17) : Int))⟩,
   ⟨1, fun _ => .op (.rename [] []), fun v => ((r v 1) == ((-2) : Int))⟩,
   ⟨1, fun _ => .op (.rename [47] [114, 101, 110, 97, 109, 101, 45, 116, 111, 45, 116, 104, 105, 115]), fun v => ((r v 2) == ((-16) : Int))⟩,
   ⟨1, fun _ => .creat [47, 116, 109, 112, 47, 103, 101, 110, 101, 114, 105, 99] 511#32, fun v => decide ((r v 3) > (0 : Int))⟩,
   ⟨1, fun _ => .op (.rename [47, 116, 109, 112] [47, 116, 109, 112, 47, 103, 101, 110, 101, 114, 105, 99]), fun v => ((r v 4) == ((-95) : Int))⟩,
   ⟨1, fun _ => .op (.rename [47, 116, 109, 112, 47, 103, 101, 110, 101, 114, 105, 99] [47, 116, 109, 112, 47, 103, 101, 110, 101, 114, 105, 99, 49]), fun v => ((r v 5) == (0 : Int))⟩,
   ⟨1, fun v => .op (.close (r v 3)), fun _ => true⟩]

example : passes t_rename_syscall_tests = true := by decide +kernel

/-- `ut_lind_fs_writev_pipe`, `/repo/src/tests/fs_tests.rs` 4764-4818. -/
def t_writev_pipe : List Line :=
  [⟨1, fun _ => .op (.pipe2 0#32), fun v => ((r v 0) == (0 : Int))⟩,
   ⟨1, fun v => .op (.writev ((v 0).pair.2 : Int) [[72, 101, 108, 108, 111, 44, 32], [112, 105, 112, 101, 33], [32, 84, 101, 115, 116, 105, 110, 103, 32, 119, 114, 105, 116, 101, 118, 46]]), fun v => ((r v 1) == (28 : Int))⟩,
   ⟨1, fun v => .op (.read ((v 0).pair.1 : Int) 28), fun v => ((r v 2) == (28 : Int)) && ((over (v 2).data ([0, 0, 0, 0, 0, 0, 0, 0, 0, 0, 0, 0, 0, 0, 0, 0, 0, 0, 0, 0, 0, 0, 0, 0, 0, 0, 0, 0])) == ([72, 101, 108, 108, 111, 44, 32, 112, 105, 112, 101, 33, 32, 84, 101, 115, 116, 105, 110, 103, 32, 119, 114, 105, 116, 101, 118, 46] : List UInt8))⟩,
   ⟨1, fun v => .op (.close ((v 0).pair.1 : Int)), fun v => ((r v 3) == (0 : Int))⟩,
   ⟨1, fun v => .op (.close ((v 0).pair.2 : Int)), fun v => ((r v 4) == (0 : Int))⟩,
   ⟨1, fun _ => .op (.exit 0), fun v => ((r v 5) == (0 : Int))⟩]

example : passes t_writev_pipe = true := by decide +kernel

/-- `ut_lind_fs_writev_file`, `/repo/src/tests/fs_tests.rs` 4821-4871. -/
def t_writev_file : List Line :=
  [⟨1, fun _ => .op (.openP [47, 116, 109, 112, 47, 116, 101, 115, 116, 95, 119, 114, 105, 116, 101, 118, 95, 102, 105, 108, 101] 66#32 511#32), fun v => decide ((r v 0) >= (0 : Int))⟩,
   ⟨1, fun v => .op (.writev (r v 0) [[72, 101, 108, 108, 111, 44, 32], [119, 111, 114, 108, 100, 33]]), fun v => ((r v 1) == (13 : Int))⟩,
   ⟨1, fun v => .op (.lseek (r v 0) 0 0), fun _ => true⟩,
   ⟨1, fun v => .op (.read (r v 0) 13), fun v => ((r v 3) == (13 : Int)) && ((over (v 3).data ([0, 0, 0, 0, 0, 0, 0, 0, 0, 0, 0, 0, 0])) == ([72, 101, 108, 108, 111, 44, 32, 119, 111, 114, 108, 100, 33] : List UInt8))⟩,
   ⟨1, fun v => .op (.close (r v 0)), fun v => ((r v 4) == (0 : Int))⟩,
   ⟨1, fun _ => .op (.unlink [47, 116, 109, 112, 47, 116, 101, 115, 116, 95, 119, 114, 105, 116, 101, 118, 95, 102, 105, 108, 101]), fun v => ((r v 5) == (0 : Int))⟩,
   ⟨1, fun _ => .op (.exit 0), fun v => ((r v 6) == (0 : Int))⟩]

example : passes t_writev_file = true := by decide +kernel

end Verif.Conform
