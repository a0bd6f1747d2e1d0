import Verif.Base

/-!
# Model of the dispatcher's argument checking

`/repo/src/interface/types.rs` 220-434 (argument extraction from the 64-bit `Arg` union) and
`/repo/src/safeposix/dispatcher.rs` 151-157, 211-970 (`check_and_dispatch!`, `dispatcher`).
The handlers themselves are not part of this model: a dispatch either fails with an
error or says with which decoded arguments the handler runs.
-/

namespace Verif.Dispatch

/-- How an argument is extracted. -/
inductive Kind
  /-- `get_int`, `/repo/src/interface/types.rs` 220-235 -/
  | int
  /-- `get_uint`, 237-249 -/
  | uint
  /-- `get_long`, `get_ulong`, `get_isize`, `get_usize` 251-269, and the pointer kinds for
  which null is allowed: never fails -/
  | any
  /-- `get_cbuf`, `get_mutcbuf`, `get_statdatastruct`, ... 271-293, 368-402, 489-511,
  672-682: non-null pointer -/
  | ptr
  /-- `get_cstr`, 313-334: non-null pointer to a valid UTF-8 C string -/
  | cstr
  deriving DecidableEq, Repr

/-- A decoded argument. -/
inductive Val
  | i32 (v : BitVec 32)
  | u32 (v : BitVec 32)
  | word (v : BitVec 64)
  deriving DecidableEq, Repr

/-- `type_checker` of `get_int`/`get_uint`: an all-zero union whose 32-bit member is then set to
all ones (little endian: the low half), lines 222-226, 239-240. -/
def typeChecker : BitVec 64 := 0x00000000ffffffff#64

/-- `get_int`, `/repo/src/interface/types.rs` 220-235. -/
def getInt (a : BitVec 64) : Except Errno Val :=
  if a &&& ~~~typeChecker = 0#64 then .ok (.i32 (a.setWidth 32)) else .error .EINVAL

/-- `get_uint`, `/repo/src/interface/types.rs` 237-249. -/
def getUint (a : BitVec 64) : Except Errno Val :=
  if a &&& ~~~typeChecker = 0#64 then .ok (.u32 (a.setWidth 32)) else .error .EINVAL

/-- Extraction of one argument.  `utf8 a` says whether the C string at address `a` is valid
UTF-8 (`charstar_to_ruststr`); reading the caller's memory is outside the model. -/
def getArg (utf8 : BitVec 64 → Bool) (k : Kind) (a : BitVec 64) : Except Errno Val :=
  match k with
  | .int => getInt a
  | .uint => getUint a
  | .any => .ok (.word a)
  | .ptr => if a = 0#64 then .error .EFAULT else .ok (.word a)
  | .cstr => if a = 0#64 then .error .EFAULT else if utf8 a then .ok (.word a) else .error .EILSEQ

/-- `check_and_dispatch!`, `/repo/src/safeposix/dispatcher.rs` 151-157: the arguments are
extracted left to right with `?`; the first error is the result and the handler is not run. -/
def checkArgs (utf8 : BitVec 64 → Bool) : List Kind → List (BitVec 64) → Except Errno (List Val)
  | [], _ => .ok []
  | k :: ks, args =>
    match getArg utf8 k (args.headD 0#64) with
    | .error e => .error e
    | .ok v => match checkArgs utf8 ks args.tail with
      | .error e => .error e
      | .ok vs => .ok (v :: vs)

/-- Argument kinds per call number: the arms of `dispatcher`
(`/repo/src/safeposix/dispatcher.rs` 224-958) that consist of one plain `check_and_dispatch!`; name and
lines behind each row.  The fifteen arms with extra logic (socket addresses, `select`, `poll`,
`epoll_wait`, socket options, `shmctl`, the two timed waits) are not in the table. -/
def signature : Nat → Option (List Kind)
  | 2 => some [.cstr, .uint] -- ACCESS_SYSCALL, 225-231
  | 4 => some [.cstr] -- UNLINK_SYSCALL, 232-234
  | 5 => some [.cstr, .cstr] -- LINK_SYSCALL, 235-241
  | 6 => some [.cstr, .cstr] -- RENAME_SYSCALL, 709-715
  | 9 => some [.cstr, .ptr] -- XSTAT_SYSCALL, 263-269
  | 10 => some [.cstr, .int, .uint] -- OPEN_SYSCALL, 270-277
  | 11 => some [.int] -- CLOSE_SYSCALL, 294-296
  | 12 => some [.int, .ptr, .any] -- READ_SYSCALL, 278-285
  | 13 => some [.int, .ptr, .any] -- WRITE_SYSCALL, 286-293
  | 14 => some [.int, .any, .int] -- LSEEK_SYSCALL, 297-304
  | 15 => some [.int, .uint, .any] -- IOCTL_SYSCALL, 366-373
  | 16 => some [.cstr, .any] -- TRUNCATE_SYSCALL, 863-869
  | 17 => some [.int, .ptr] -- FXSTAT_SYSCALL, 305-311
  | 18 => some [.int, .any] -- FTRUNCATE_SYSCALL, 870-876
  | 19 => some [.int, .ptr] -- FSTATFS_SYSCALL, 312-318
  | 21 => some [.ptr, .any, .int, .int, .int, .any] -- MMAP_SYSCALL, 319-329
  | 22 => some [.ptr, .any] -- MUNMAP_SYSCALL, 330-336
  | 23 => some [.int, .ptr, .uint] -- GETDENTS_SYSCALL, 748-755
  | 24 => some [.int] -- DUP_SYSCALL, 337-343
  | 25 => some [.int, .int] -- DUP2_SYSCALL, 344-350
  | 26 => some [.cstr, .ptr] -- STATFS_SYSCALL, 351-357
  | 28 => some [.int, .int, .int] -- FCNTL_SYSCALL, 358-365
  | 29 => some [] -- GETPPID_SYSCALL, 374-376
  | 30 => some [.int] -- EXIT_SYSCALL, 646-648
  | 31 => some [] -- GETPID_SYSCALL, 377-379
  | 34 => some [.int, .ptr, .any, .int] -- SEND_SYSCALL, 397-405
  | 36 => some [.int, .ptr, .any, .int] -- RECV_SYSCALL, 418-426
  | 39 => some [.int, .int] -- LISTEN_SYSCALL, 475-481
  | 45 => some [.int, .int] -- SHUTDOWN_SYSCALL, 602-608
  | 47 => some [.ptr, .uint] -- GETCWD_SYSCALL, 766-772
  | 49 => some [.int, .int, .int, .ptr] -- SOCKETPAIR_SYSCALL, 636-645
  | 50 => some [] -- GETUID_SYSCALL, 662-664
  | 51 => some [] -- GETEUID_SYSCALL, 665-667
  | 52 => some [] -- GETGID_SYSCALL, 668-670
  | 53 => some [] -- GETEGID_SYSCALL, 671-673
  | 54 => some [.int, .int] -- FLOCK_SYSCALL, 649-655
  | 56 => some [.int] -- EPOLL_CREATE_SYSCALL, 716-718
  | 57 => some [.int, .int, .int, .ptr] -- EPOLL_CTL_SYSCALL, 719-727
  | 62 => some [.int, .any, .int] -- SHMGET_SYSCALL, 787-794
  | 63 => some [.int, .ptr, .int] -- SHMAT_SYSCALL, 795-802
  | 64 => some [.ptr] -- SHMDT_SYSCALL, 803-805
  | 66 => some [.ptr] -- PIPE_SYSCALL, 756-758
  | 67 => some [.ptr, .int] -- PIPE2_SYSCALL, 759-765
  | 68 => some [.any] -- FORK_SYSCALL, 656-658
  | 69 => some [.any] -- EXEC_SYSCALL, 659-661
  | 70 => some [] -- MUTEX_CREATE_SYSCALL, 821-823
  | 71 => some [.int] -- MUTEX_DESTROY_SYSCALL, 824-826
  | 72 => some [.int] -- MUTEX_LOCK_SYSCALL, 827-829
  | 73 => some [.int] -- MUTEX_TRYLOCK_SYSCALL, 830-832
  | 74 => some [.int] -- MUTEX_UNLOCK_SYSCALL, 833-835
  | 75 => some [] -- COND_CREATE_SYSCALL, 836-838
  | 76 => some [.int] -- COND_DESTROY_SYSCALL, 839-841
  | 77 => some [.int, .int] -- COND_WAIT_SYSCALL, 842-848
  | 78 => some [.int] -- COND_BROADCAST_SYSCALL, 849-851
  | 79 => some [.int] -- COND_SIGNAL_SYSCALL, 852-854
  | 91 => some [.uint, .int, .uint] -- SEM_INIT_SYSCALL, 908-915
  | 92 => some [.uint] -- SEM_WAIT_SYSCALL, 916-918
  | 93 => some [.uint] -- SEM_TRYWAIT_SYSCALL, 928-930
  | 95 => some [.uint] -- SEM_POST_SYSCALL, 919-921
  | 96 => some [.uint] -- SEM_DESTROY_SYSCALL, 922-924
  | 97 => some [.uint] -- SEM_GETVALUE_SYSCALL, 925-927
  | 125 => some [.ptr, .any] -- GETHOSTNAME_SYSCALL, 773-779
  | 126 => some [.int, .ptr, .any, .any] -- PREAD_SYSCALL, 674-682
  | 127 => some [.int, .ptr, .any, .any] -- PWRITE_SYSCALL, 683-691
  | 130 => some [.cstr] -- CHDIR_SYSCALL, 242-244
  | 131 => some [.cstr, .uint] -- MKDIR_SYSCALL, 780-786
  | 132 => some [.cstr] -- RMDIR_SYSCALL, 706-708
  | 133 => some [.cstr, .uint] -- CHMOD_SYSCALL, 692-698
  | 134 => some [.int, .uint] -- FCHMOD_SYSCALL, 699-705
  | 136 => some [.int, .int, .int] -- SOCKET_SYSCALL, 380-387
  | 146 => some [.ptr, .any] -- GETIFADDRS_SYSCALL, 551-557
  | 147 => some [.int, .any, .any] -- SIGACTION_SYSCALL, 877-884
  | 148 => some [.int, .int] -- KILL_SYSCALL, 885-891
  | 149 => some [.int, .any, .any] -- SIGPROCMASK_SYSCALL, 892-899
  | 150 => some [.int, .any, .any] -- SETITIMER_SYSCALL, 900-907
  | 161 => some [.int] -- FCHDIR_SYSCALL, 260-262
  | 162 => some [.int] -- FSYNC_SYSCALL, 245-247
  | 163 => some [.int] -- FDATASYNC_SYSCALL, 248-250
  | 164 => some [.int, .any, .any, .uint] -- SYNC_FILE_RANGE, 251-259
  | 170 => some [.int, .ptr, .int] -- WRITEV_SYSCALL, 938-945
  | _ => none

/-- What a call through the dispatcher leads to. -/
inductive Outcome
  /-- the handler of that call number is run with these arguments -/
  | run (callnum : Nat) (args : List Val)
  /-- `-errno` is returned, no handler is run -/
  | fail (e : Errno)
  /-- `-1`: unknown call number (line 957), or an arm that is not in the table -/
  | notInTable
  deriving DecidableEq, Repr

/-- `dispatcher`, `/repo/src/safeposix/dispatcher.rs` 211-960, restricted to the table. -/
def dispatch (utf8 : BitVec 64 → Bool) (callnum : Nat) (args : List (BitVec 64)) : Outcome :=
  match signature callnum with
  | none => .notInTable
  | some ks => match checkArgs utf8 ks args with
    | .error e => .fail e
    | .ok vs => .run callnum vs

end Verif.Dispatch
