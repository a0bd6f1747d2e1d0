import Verif.Dispatch
import Mathlib.Tactic.IntervalCases

/-!
# Dispatcher properties: C45
-/

namespace Verif.Dispatch

/-! ## Specification -/

/-- Independent statement of when a 64-bit slot is a well-formed argument of a kind. -/
def WellFormed (utf8 : BitVec 64 → Bool) (a : BitVec 64) : Kind → Prop
  | .int | .uint => a.toNat < 2 ^ 32
  | .any => True
  | .ptr => a ≠ 0#64
  | .cstr => a ≠ 0#64 ∧ utf8 a = true

/-- The error for an ill-formed argument. -/
def badErr (a : BitVec 64) : Kind → Errno
  | .int | .uint => .EINVAL
  | .any => .EINVAL
  | .ptr => .EFAULT
  | .cstr => if a = 0#64 then .EFAULT else .EILSEQ

/-- The value passed on for a well-formed argument. -/
def value (a : BitVec 64) : Kind → Val
  | .int => .i32 (BitVec.ofNat 32 a.toNat)
  | .uint => .u32 (BitVec.ofNat 32 a.toNat)
  | .any | .ptr | .cstr => .word a

/-- C types of arguments, as far as passing them matters. -/
inductive CType
  /-- `int`, `uid_t`, `socklen_t`, descriptors, flags and commands -/
  | int
  /-- `unsigned int`, `mode_t` -/
  | uint
  /-- `size_t`, `ssize_t`, `off_t`, `long`: all 64 bits count -/
  | long
  /-- a pointer that must not be null -/
  | ptr
  /-- a pointer that may be null -/
  | optr
  /-- a path name -/
  | str
  deriving DecidableEq, Repr

/-- How an argument of a C type has to be extracted. -/
def CType.kind : CType → Kind
  | .int => .int
  | .uint => .uint
  | .long | .optr => .any
  | .ptr => .ptr
  | .str => .cstr

/-- Prototypes of the calls in the manual, by call number. -/
def prototypes : List (Nat × List CType) :=
  [(2, [.str, .uint]),                    -- int access(const char *path, int mode)
   (4, [.str]),                           -- int unlink(const char *path)
   (5, [.str, .str]),                     -- int link(const char *old, const char *new)
   (6, [.str, .str]),                     -- int rename(const char *old, const char *new)
   (9, [.str, .ptr]),                     -- int stat(const char *path, struct stat *buf)
   (10, [.str, .int, .uint]),             -- int open(const char *path, int flags, mode_t mode)
   (11, [.int]),                          -- int close(int fd)
   (12, [.int, .ptr, .long]),             -- ssize_t read(int fd, void *buf, size_t count)
   (13, [.int, .ptr, .long]),             -- ssize_t write(int fd, const void *buf, size_t count)
   (14, [.int, .long, .int]),             -- off_t lseek(int fd, off_t offset, int whence)
   (15, [.int, .uint, .optr]),            -- int ioctl(int fd, unsigned request, void *arg)
   (16, [.str, .long]),                   -- int truncate(const char *path, off_t length)
   (17, [.int, .ptr]),                    -- int fstat(int fd, struct stat *buf)
   (18, [.int, .long]),                   -- int ftruncate(int fd, off_t length)
   (19, [.int, .ptr]),                    -- int fstatfs(int fd, struct statfs *buf)
   (22, [.ptr, .long]),                   -- int munmap(void *addr, size_t len)
   (23, [.int, .ptr, .uint]),             -- int getdents(unsigned fd, void *dirp, unsigned count)
   (24, [.int]),                          -- int dup(int fd)
   (25, [.int, .int]),                    -- int dup2(int old, int new)
   (26, [.str, .ptr]),                    -- int statfs(const char *path, struct statfs *buf)
   (28, [.int, .int, .int]),              -- int fcntl(int fd, int cmd, int arg)
   (29, []), (31, []), (50, []), (51, []), (52, []), (53, []), -- getppid, getpid, get[e]uid, get[e]gid
   (30, [.int]),                          -- void exit(int status)
   (34, [.int, .ptr, .long, .int]),       -- ssize_t send(int fd, const void *, size_t, int flags)
   (36, [.int, .ptr, .long, .int]),       -- ssize_t recv(int fd, void *, size_t, int flags)
   (39, [.int, .int]),                    -- int listen(int fd, int backlog)
   (45, [.int, .int]),                    -- int shutdown(int fd, int how)
   (47, [.ptr, .uint]),                   -- char *getcwd(char *buf, size_t size), 32 bit here
   (49, [.int, .int, .int, .ptr]),        -- int socketpair(int, int, int, int sv[2])
   (54, [.int, .int]),                    -- int flock(int fd, int operation)
   (56, [.int]),                          -- int epoll_create(int size)
   (57, [.int, .int, .int, .ptr]),        -- int epoll_ctl(int, int, int, struct epoll_event *)
   (62, [.int, .long, .int]),             -- int shmget(key_t key, size_t size, int flags)
   (64, [.ptr]),                          -- int shmdt(const void *addr)
   (66, [.ptr]),                          -- int pipe(int fd[2])
   (67, [.ptr, .int]),                    -- int pipe2(int fd[2], int flags)
   (125, [.ptr, .long]),                  -- int gethostname(char *name, size_t len)
   (126, [.int, .ptr, .long, .long]),     -- ssize_t pread(int, void *, size_t, off_t)
   (127, [.int, .ptr, .long, .long]),     -- ssize_t pwrite(int, const void *, size_t, off_t)
   (130, [.str]),                         -- int chdir(const char *path)
   (131, [.str, .uint]),                  -- int mkdir(const char *path, mode_t mode)
   (132, [.str]),                         -- int rmdir(const char *path)
   (133, [.str, .uint]),                  -- int chmod(const char *path, mode_t mode)
   (134, [.int, .uint]),                  -- int fchmod(int fd, mode_t mode)
   (136, [.int, .int, .int]),             -- int socket(int domain, int type, int protocol)
   (147, [.int, .optr, .optr]),           -- int sigaction(int, const struct sigaction *, … *)
   (148, [.int, .int]),                   -- int kill(pid_t pid, int sig)
   (149, [.int, .optr, .optr]),           -- int sigprocmask(int, const sigset_t *, sigset_t *)
   (150, [.int, .optr, .optr]),           -- int setitimer(int, const struct itimerval *, … *)
   (161, [.int]), (162, [.int]), (163, [.int]), -- fchdir, fsync, fdatasync
   (164, [.int, .long, .long, .uint]),    -- int sync_file_range(int, off_t, off_t, unsigned)
   (170, [.int, .ptr, .int])]             -- ssize_t writev(int, const struct iovec *, int)

/-! ## Lemmas -/

theorem mask_zero_iff (a : BitVec 64) : a &&& ~~~typeChecker = 0#64 ↔ a.toNat < 2 ^ 32 := by
  constructor
  · intro h
    have h2 : a = a &&& typeChecker := by
      apply BitVec.eq_of_getLsbD_eq
      intro i hi
      have := congrArg (fun x => BitVec.getLsbD x i) h
      simp only [BitVec.getLsbD_and, BitVec.getLsbD_not, hi, decide_true, Bool.true_and,
        BitVec.getLsbD_zero] at this
      rw [BitVec.getLsbD_and]
      revert this
      cases a.getLsbD i <;> cases typeChecker.getLsbD i <;> simp
    rw [h2, BitVec.toNat_and]
    exact Nat.lt_of_le_of_lt Nat.and_le_right (by decide)
  · intro h
    apply BitVec.eq_of_getLsbD_eq
    intro i hi
    by_cases h32 : i < 32
    · simp [typeChecker]; intro _; interval_cases i <;> decide
    · have : a.getLsbD i = false := by
        apply Nat.testBit_lt_two_pow
        exact Nat.lt_of_lt_of_le h (Nat.pow_le_pow_right (by decide) (by omega))
      simp [this]

theorem getArg_spec (utf8 : BitVec 64 → Bool) (k : Kind) (a : BitVec 64) :
    (WellFormed utf8 a k → getArg utf8 k a = .ok (value a k)) ∧
    (¬ WellFormed utf8 a k → getArg utf8 k a = .error (badErr a k)) := by
  have hv : a.setWidth 32 = BitVec.ofNat 32 a.toNat := by
    apply BitVec.eq_of_toNat_eq; simp
  cases k <;> simp only [WellFormed, getArg, getInt, getUint, mask_zero_iff, value, badErr, hv] <;>
    (constructor <;> intro h) <;> (repeat' split) <;> simp_all <;> omega

/-! ## Properties -/

/-- C45.  A 32-bit argument slot is accepted iff its upper 32 bits are zero, and then the
value passed on is its lower half; otherwise the extraction fails with EINVAL. -/
theorem int_arg_iff (a : BitVec 64) :
    (getInt a = .ok (.i32 (a.setWidth 32)) ↔ a >>> 32 = 0#64) ∧
    (getInt a = .error .EINVAL ↔ a >>> 32 ≠ 0#64) := by
  have : a >>> 32 = 0#64 ↔ a.toNat < 2 ^ 32 := by
    rw [← BitVec.toNat_inj]; simp [Nat.shiftRight_eq_div_pow]
  rw [← mask_zero_iff] at this
  unfold getInt
  by_cases h : a &&& ~~~typeChecker = 0#64
  · have h' := this.2 h
    simp [h, h']
  · have h' : ¬ (a >>> 32 = 0#64) := fun e => h (this.1 e)
    simp [h, h']

/-- C45.  Through the dispatcher a handler runs exactly if every argument of the call is
well-formed, and then with exactly the caller's values; otherwise it is not run and the
error is the one of the first ill-formed argument. -/
theorem dispatch_spec (utf8 : BitVec 64 → Bool) (callnum : Nat) (args : List (BitVec 64))
    (ks : List Kind) (hk : signature callnum = some ks) (hl : ks.length ≤ args.length) :
    ((∀ p ∈ ks.zip args, WellFormed utf8 p.2 p.1) →
      dispatch utf8 callnum args = .run callnum ((ks.zip args).map fun p => value p.2 p.1)) ∧
    (∀ pre p post, ks.zip args = pre ++ p :: post → (∀ q ∈ pre, WellFormed utf8 q.2 q.1) →
      ¬ WellFormed utf8 p.2 p.1 → dispatch utf8 callnum args = .fail (badErr p.2 p.1)) := by
  have ok : ∀ (ks : List Kind) (args : List (BitVec 64)), ks.length ≤ args.length →
      (∀ p ∈ ks.zip args, WellFormed utf8 p.2 p.1) →
      checkArgs utf8 ks args = .ok ((ks.zip args).map fun p => value p.2 p.1) := by
    intro ks
    induction ks with
    | nil => intro args _ _; simp [checkArgs]
    | cons k ks ih =>
      intro args hl h
      cases args with
      | nil => simp at hl
      | cons a args =>
        simp only [checkArgs, List.headD_cons, List.tail_cons]
        rw [(getArg_spec utf8 k a).1 (h (k, a) (by simp))]
        rw [ih args (by simpa using hl) (fun p hp => h p (by simp [hp]))]
        simp
  have bad : ∀ (ks : List Kind) (args : List (BitVec 64)) pre p post,
      ks.zip args = pre ++ p :: post → (∀ q ∈ pre, WellFormed utf8 q.2 q.1) →
      ¬ WellFormed utf8 p.2 p.1 → checkArgs utf8 ks args = .error (badErr p.2 p.1) := by
    intro ks
    induction ks with
    | nil => intro args pre p post h; simp at h
    | cons k ks ih =>
      intro args pre p post h hpre hp
      cases args with
      | nil => simp at h
      | cons a args =>
        simp only [checkArgs, List.headD_cons, List.tail_cons]
        cases pre with
        | nil =>
          simp at h
          obtain ⟨rfl, _⟩ := h
          rw [(getArg_spec utf8 k a).2 hp]
        | cons q pre =>
          simp at h
          obtain ⟨rfl, h⟩ := h
          rw [(getArg_spec utf8 k a).1 (hpre (k, a) (by simp))]
          rw [ih args pre p post h (fun q hq => hpre q (by simp [hq])) hp]
  refine ⟨?_, ?_⟩
  · intro h; simp only [dispatch, hk, ok ks args hl h]
  · intro pre p post h h1 h2; simp only [dispatch, hk, bad ks args pre p post h h1 h2]

/-- C45.  Every call takes its arguments as its prototype says: as many, each narrowed to 32 bits
exactly if its C type is a 32-bit one, each pointer checked exactly if it may not be null. -/
theorem dispatch_prototypes :
    ∀ p ∈ prototypes, signature p.1 = some (p.2.map CType.kind) := by decide

/-- The exception: `mmap` and `shmat` refuse a null address, which asks the system to choose
one in POSIX (the trampoline in front of this library always passes an address). -/
theorem null_address_violated (utf8 : BitVec 64 → Bool) (l p f d o id : BitVec 64)
    (hi : getInt id = .ok (.i32 (id.setWidth 32))) :
    dispatch utf8 21 [0#64, l, p, f, d, o] = .fail .EFAULT ∧
    dispatch utf8 63 [id, 0#64, f] = .fail .EFAULT := by
  simp [dispatch, signature, checkArgs, getArg, hi]

example : getInt 3#64 = .ok (.i32 ((3#64).setWidth 32)) := by decide

example : dispatch (fun _ => true) 10 [0x1000#64, 0x42#64, 0x1b6#64] =
    .run 10 [.word 0x1000#64, .i32 0x42#32, .u32 0x1b6#32] ∧
    dispatch (fun _ => true) 10 [0x1000#64, 0xffffffffffffffff#64, 0x1b6#64] = .fail .EINVAL ∧
    dispatch (fun _ => true) 10 [0#64, 0#64, 0#64] = .fail .EFAULT := by decide

end Verif.Dispatch
