import Verif.SemShm
import Verif.Ident

/-!
# The project's tests of shared memory, semaphores and identity, run on the model

`/repo/src/tests/fs_tests.rs` 2666-2908, 1731-1753, 4064-4109 and `/repo/src/tests/sys_tests.rs`, transcribed by hand.  These are
tests of the transcription from Rust to Lean, not proofs.  Where a test has threads, their calls are put in one of the orders that the
test allows.
-/

namespace Verif.Conform.Ipc

/-- The answers of the calls on the model with shared memory and semaphores. -/
def sems (l : List (Nat × SemShm.Op)) : List Shm.Out := SemShm.answers true SemShm.init l

/-- The address used by the tests. -/
def addr : Nat := 0xfffff000
/-- `0666 | IPC_CREAT`: Rust's `0666` is decimal. -/
def flg : BitVec 32 := 666 ||| Shm.ipcCreat
/-- `Ok`. -/
def ok (n : Int) : Shm.Out := .r (.ok n)
/-- An error. -/
def er (e : Errno) : Shm.Out := .r (.err e)
/-- A shared memory call, `fork` or `exit`. -/
def sh (o : Shm.Op) : SemShm.Op := .shm o none

/-- `ut_lind_fs_shm`, `/repo/src/tests/fs_tests.rs` 2667-2702. -/
example : sems
    [(1, sh (.get 31337 1024 flg)), (1, sh (.at 1 addr true)), (1, sh (.stat 1)), (1, sh (.rmid 1)), (1, sh (.dt addr))] =
    [ok 1, ok addr, .stat 31337 1024 ((flg &&& 0x1FF).setWidth 16) 1, ok 0, ok 1] := by decide +kernel

/-- `ut_lind_fs_sem_fork`, 2740-2801, the child first. -/
example : sems
    [(1, sh (.get 31337 1024 flg)), (1, sh (.at 1 addr true)), (1, .init addr true 1), (1, .getvalue addr), (1, sh (.fork 2)),
     (2, .wait addr), (2, .post addr), (2, sh .exit), (1, .wait addr), (1, .getvalue addr), (1, .post addr), (1, .destroy addr),
     (1, sh (.rmid 1)), (1, sh (.dt addr)), (1, sh .exit)] =
    [ok 1, ok addr, ok 0, ok 1, ok 0, ok 0, ok 0, ok 0, ok 0, ok 0, ok 0, ok 0, ok 0, ok 1, ok 0] := by decide +kernel

/-- The same, the parent waiting while the child holds the semaphore: the call blocks, and succeeds after the child's post. -/
example : sems
    [(1, sh (.get 31337 1024 flg)), (1, sh (.at 1 addr true)), (1, .init addr true 1), (1, .getvalue addr), (1, sh (.fork 2)),
     (2, .wait addr), (1, .wait addr), (2, .post addr), (1, .wait addr), (1, .getvalue addr), (2, sh .exit), (1, .post addr),
     (1, .destroy addr), (1, sh (.rmid 1)), (1, sh (.dt addr)), (1, sh .exit)] =
    [ok 1, ok addr, ok 0, ok 1, ok 0, ok 0, .r .blocked, ok 0, ok 0, ok 0, ok 0, ok 0, ok 0, ok 0, ok 1, ok 0] := by
  decide +kernel

/-- `ut_lind_fs_sem_trytimed`, 2815-2881. -/
example : sems
    [(1, sh (.get 31337 1024 flg)), (1, sh (.at 1 addr true)), (1, .init addr true 1), (1, .getvalue addr), (1, sh (.fork 2)),
     (2, .wait addr), (2, .post addr), (1, .timedwait addr false), (1, .getvalue addr), (2, sh .exit), (1, .post addr),
     (1, .destroy addr), (1, sh (.rmid 1)), (1, sh (.dt addr)), (1, sh .exit)] =
    [ok 1, ok addr, ok 0, ok 1, ok 0, ok 0, ok 0, ok 0, ok 0, ok 0, ok 0, ok 0, ok 0, ok 1, ok 0] := by
  decide +kernel

/-- `ut_lind_fs_sem_test`, 2884-2908. -/
example : sems
    [(1, sh (.get 31337 1024 flg)), (1, sh (.at 1 addr true)), (1, .destroy addr), (1, .getvalue addr), (1, .post addr),
     (1, .init addr true 0), (1, .timedwait addr true), (1, .trywait addr)] =
    [ok 1, ok addr, er .EINVAL, er .EINVAL, er .EINVAL, ok 0, er .ETIMEDOUT, er .EAGAIN] := by decide +kernel

/-- `ut_lind_fs_shmget_syscall`, 4064-4109 (not marked as a test in the source: the identifier it expects, 4, is that of a run after
three other segments). -/
example : sems
    [(1, sh (.get 1 1 Shm.ipcCreat)), (1, sh (.get 2 1 Shm.ipcCreat)), (1, sh (.get 3 1 Shm.ipcCreat)),
     (1, sh (.get 33123 1024 Shm.ipcCreat)), (1, sh (.get 33123 1024 (Shm.ipcCreat ||| Shm.ipcExcl))), (1, sh (.get 0 1024 0)),
     (1, sh (.get 33123 1024 666)), (1, sh (.get 123456 1024 0)), (1, sh (.get 123456 (4278190079 + 10) Shm.ipcCreat)),
     (1, sh (.get 123456 0 Shm.ipcCreat))] =
    [ok 1, ok 2, ok 3, ok 4, er .EEXIST, er .ENOENT, ok 4, er .ENOENT, er .EINVAL, er .EINVAL] := by decide +kernel

/-- The answers of calls on the model with identities. -/
def ids (S : Ident.Sys) : List (Nat × Ident.Call) → List Ret
  | [] => []
  | x :: l => (Ident.call S x.1 x.2).2 :: ids (Ident.call S x.1 x.2).1 l

/-- `ut_lind_getpid`, `/repo/src/tests/sys_tests.rs` 13-20. -/
example : ids Ident.boot [(1, .getpid)] = [.ok 1] := by decide +kernel
/-- `ut_lind_getppid`, 23-32. -/
example : ids Ident.boot [(1, .sys (.fork 2)), (2, .getppid)] = [.ok 0, .ok 1] := by decide +kernel
/-- `ut_lind_getuid`, `ut_lind_geteuid`, `ut_lind_getgid`, `ut_lind_getegid`, 35-84 (-1 is the value of `EPERM`). -/
example : ids Ident.boot [(1, .getuid), (1, .getuid)] = [.err .EPERM, .ok 1000] := by decide +kernel
example : ids Ident.boot [(1, .geteuid), (1, .geteuid)] = [.err .EPERM, .ok 1000] := by decide +kernel
example : ids Ident.boot [(1, .getgid), (1, .getgid)] = [.err .EPERM, .ok 1000] := by decide +kernel
example : ids Ident.boot [(1, .getegid), (1, .getegid)] = [.err .EPERM, .ok 1000] := by decide +kernel
/-- `ut_lind_fork`, 87-105. -/
example : ids Ident.boot [(1, .sys (.fork 2)), (2, .getppid), (2, .getuid), (2, .getuid)] =
    [.ok 0, .ok 1, .err .EPERM, .ok 1000] := by decide +kernel
/-- `ut_lind_exit`, 108-121. -/
example : ids Ident.boot [(1, .sys (.exit 0))] = [.ok 0] := by decide +kernel
/-- `ut_lind_exec`, 124-138. -/
example : ids Ident.boot [(1, .sys (.fork 2)), (2, .getuid), (2, .getuid), (1, .sys (.exec 2))] =
    [.ok 0, .err .EPERM, .ok 1000, .ok 0] := by decide +kernel
/-- `ut_lind_fs_getpid_getppid`, `/repo/src/tests/fs_tests.rs` 2705-2730. -/
example : ids Ident.boot [(1, .getpid), (1, .sys (.fork 2)), (2, .getpid), (2, .getppid), (2, .sys (.exit 0)), (1, .sys (.exit 0))] =
    [.ok 1, .ok 0, .ok 2, .ok 1, .ok 0, .ok 0] := by decide +kernel
/-- `ut_lind_fs_getuid`, 1732-1753. -/
example : ids Ident.boot
    [(1, .getgid), (1, .getegid), (1, .getuid), (1, .geteuid), (1, .getgid), (1, .getegid), (1, .getuid), (1, .geteuid)] =
    [.err .EPERM, .err .EPERM, .err .EPERM, .err .EPERM, .ok 1000, .ok 1000, .ok 1000, .ok 1000] := by decide +kernel

end Verif.Conform.Ipc
