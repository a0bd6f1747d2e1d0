import Verif.Touch

/-!
# What a caller hands over with a call: specification for C97

By call number, from the prototypes in the manual: which bytes a call may read, which it may write
and which address range it may map anew.  Nothing here refers to how the calls are carried out; the
state is used only where the extent depends on it (the size of a shared memory segment).
-/

namespace Verif.Touch

/-- A piece of the caller's memory handed over. -/
inductive Region
  /-- `const` buffer: may be read -/
  | inn (a n : Nat)
  /-- buffer for results: may be read and written -/
  | out (a n : Nat)
  /-- a C string -/
  | str (a : Nat)
  /-- address range that may be mapped anew -/
  | area (a n : Nat)
  deriving DecidableEq, Repr

/-- The bytes `[a, a+n)` lie in `[b, b+k)`. -/
def Within (a n b k : Nat) : Prop := n = 0 ∨ (b ≤ a ∧ a + n ≤ b + k)

instance (a n b k : Nat) : Decidable (Within a n b k) := by unfold Within; infer_instance

/-- An access stays inside a region, and does no more than is allowed there. -/
def Inside : Acc → Region → Prop
  | .read a n, .inn b k => Within a n b k
  | .read a n, .out b k => Within a n b k
  | .write a n, .out b k => Within a n b k
  | .str a, .str b => a = b
  | .map a n, .area b k => Within a n b k
  | _, _ => False

instance (x : Acc) (r : Region) : Decidable (Inside x r) := by
  cases x <;> cases r <;> unfold Inside <;> infer_instance

/-- The number in the `k` bytes at `a`, least significant byte first. -/
def peek (m : Nat → Nat) (a k : Nat) : Nat :=
  ((List.range k).map (fun i => m (a + i) * 256 ^ i)).sum

/-- An `int` argument with its sign. -/
def sint (a : BitVec 64) : Int := (BitVec.ofNat 32 a.toNat).toInt

/-- An optional structure: null hands over nothing. -/
def opt (a : BitVec 64) (r : Region) : List Region := if a = 0#64 then [] else [r]

/-- The buffers of an `iovec` array with `k` elements. -/
def iovecs (m : Nat → Nat) (a k : Nat) : List Region :=
  (List.range k).map fun i => .inn (peek m (a + 16 * i) 8) (peek m (a + 16 * i + 8) 8)

/-- What is handed over, by call number.  `segment` is the size of the segment a `shmat` names,
`attached` the caller's attachments (address and size). -/
def given (m : Nat → Nat) (segment : Nat) (attached : List (BitVec 64 × Nat)) (call : Nat)
    (args : List (BitVec 64)) : List Region :=
  let A := fun i => args.getD i 0#64
  let P := fun i => (A i).toNat
  match call with
  | 2 => [.str (P 0)]                            -- access(const char *path, int mode)
  | 4 => [.str (P 0)]                            -- unlink(const char *path)
  | 5 => [.str (P 0), .str (P 1)]                -- link(const char *old, const char *new)
  | 6 => [.str (P 0), .str (P 1)]                -- rename(const char *old, const char *new)
  | 9 => [.str (P 0), .out (P 1) 104]            -- stat(const char *path, struct stat *buf)
  | 10 => [.str (P 0)]                           -- open(const char *path, int flags, mode_t mode)
  | 12 => [.out (P 1) (P 2)]                     -- read(int fd, void *buf, size_t count)
  | 13 => [.inn (P 1) (P 2)]                     -- write(int fd, const void *buf, size_t count)
  | 15 => opt (A 2) (.out (P 2) 4)               -- ioctl(int fd, unsigned request, int *arg)
  | 16 => [.str (P 0)]                           -- truncate(const char *path, off_t length)
  | 17 => [.out (P 1) 104]                       -- fstat(int fd, struct stat *buf)
  | 19 => [.out (P 1) 112]                       -- fstatfs(int fd, struct statfs *buf)
  | 21 => [.area (P 0) (P 1)]                    -- mmap(void *addr, size_t length, ...)
  | 22 => [.area (P 0) (P 1)]                    -- munmap(void *addr, size_t length)
  | 23 => [.out (P 1) (P 2)]                     -- getdents(int fd, void *dirp, unsigned count)
  | 26 => [.str (P 0), .out (P 1) 112]           -- statfs(const char *path, struct statfs *buf)
  | 33 => [.inn (P 1) (P 2)]                     -- bind(int fd, const struct sockaddr *addr, socklen_t len)
  | 34 => [.inn (P 1) (P 2)]                     -- send(int fd, const void *buf, size_t len, int flags)
  | 35 => [.inn (P 1) (P 2), .inn (P 4) (P 5)]   -- sendto(fd, buf, len, flags, addr, addrlen)
  | 36 => [.out (P 1) (P 2)]                     -- recv(int fd, void *buf, size_t len, int flags)
  | 37 =>                                        -- recvfrom(fd, buf, len, flags, addr, socklen_t *addrlen)
    [.out (P 1) (P 2)] ++ opt (A 5) (.out (P 5) 4) ++ opt (A 5) (.out (P 4) (peek m (P 5) 4))
  | 38 => [.inn (P 1) (P 2)]                     -- connect(int fd, const struct sockaddr *addr, socklen_t len)
  | 40 =>                                        -- accept(fd, struct sockaddr *addr, socklen_t *addrlen)
    opt (A 2) (.out (P 2) 4) ++ opt (A 2) (.out (P 1) (peek m (P 2) 4))
  | 43 =>                                        -- getsockopt(fd, level, name, void *val, socklen_t *len)
    opt (A 4) (.out (P 4) 4) ++ opt (A 4) (.out (P 3) (peek m (P 4) 4))
  | 44 => opt (A 3) (.inn (P 3) (P 4))           -- setsockopt(fd, level, name, const void *val, socklen_t len)
  | 46 =>                                        -- select(nfds, fd_set *r, fd_set *w, fd_set *x, struct timeval *t)
    opt (A 1) (.out (P 1) 128) ++ opt (A 2) (.out (P 2) 128) ++ opt (A 3) (.out (P 3) 128) ++
      opt (A 4) (.out (P 4) 16)
  | 47 => [.out (P 0) (P 1)]                     -- getcwd(char *buf, unsigned size)
  | 48 => [.out (P 0) (8 * P 1)]                 -- poll(struct pollfd *fds, nfds_t nfds, int timeout)
  | 49 => [.out (P 3) 8]                         -- socketpair(domain, type, protocol, int sv[2])
  | 57 => [.inn (P 3) 8]                         -- epoll_ctl(epfd, op, fd, struct epoll_event *event)
  | 58 => [.out (P 1) (8 * (sint (A 2)).toNat)]  -- epoll_wait(epfd, events, int maxevents, int timeout)
  | 63 => [.area (P 1) segment]                  -- shmat(int id, const void *addr, int flags)
  | 64 =>                                        -- shmdt(const void *addr)
    (attached.filter (fun p => p.1 = A 0)).map (fun p => .area (P 0) p.2)
  | 65 => opt (A 2) (.out (P 2) 80)              -- shmctl(int id, int cmd, struct shmid_ds *buf)
  | 66 => [.out (P 0) 8]                         -- pipe(int fds[2])
  | 67 => [.out (P 0) 8]                         -- pipe2(int fds[2], int flags)
  | 80 => opt (A 2) (.inn (P 2) 16)              -- cond_timedwait(cond, mutex, const struct timespec *t)
  | 94 => opt (A 1) (.inn (P 1) 16)              -- sem_timedwait(sem, const struct timespec *t)
  | 125 => if (A 1).toInt < 0 then [] else [.out (P 0) (P 1)] -- gethostname(char *name, ssize_t len)
  | 126 => [.out (P 1) (P 2)]                    -- pread(int fd, void *buf, size_t count, off_t offset)
  | 127 => [.inn (P 1) (P 2)]                    -- pwrite(int fd, const void *buf, size_t count, off_t offset)
  | 130 => [.str (P 0)]                          -- chdir(const char *path)
  | 131 => [.str (P 0)]                          -- mkdir(const char *path, mode_t mode)
  | 132 => [.str (P 0)]                          -- rmdir(const char *path)
  | 133 => [.str (P 0)]                          -- chmod(const char *path, mode_t mode)
  | 144 =>                                       -- getsockname(fd, struct sockaddr *addr, socklen_t *addrlen)
    opt (A 2) (.out (P 2) 4) ++ opt (A 2) (.out (P 1) (peek m (P 2) 4))
  | 145 =>                                       -- getpeername(fd, struct sockaddr *addr, socklen_t *addrlen)
    opt (A 2) (.out (P 2) 4) ++ opt (A 2) (.out (P 1) (peek m (P 2) 4))
  | 146 => [.out (P 0) (P 1)]                    -- getifaddrs(char *buf, size_t count)
  | 147 => opt (A 1) (.inn (P 1) 24) ++ opt (A 2) (.out (P 2) 24) -- sigaction(sig, const *act, *old)
  | 149 => opt (A 1) (.inn (P 1) 8) ++ opt (A 2) (.out (P 2) 8)   -- sigprocmask(how, const *set, *old)
  | 150 => opt (A 1) (.inn (P 1) 32) ++ opt (A 2) (.out (P 2) 32) -- setitimer(which, const *new, *old)
  | 170 =>                                       -- writev(int fd, const struct iovec *iov, int iovcnt)
    if sint (A 2) < 0 then []
    else .inn (P 1) (16 * (sint (A 2)).toNat) :: iovecs m (P 1) (sint (A 2)).toNat
  | _ => []                                      -- no pointers

/-- The address handed to `bind`, `connect`, `sendto` is complete: its length covers the family
field, and the whole structure if the family is `AF_UNIX` (1). -/
def FullAddr (m : Nat → Nat) (a len : BitVec 64) : Prop :=
  2 ≤ len.toNat ∧ (peek m a.toNat 2 = 1 → 110 ≤ len.toNat)

/-- The cases in which the calls are known to go beyond what they were given are left out. -/
def Careful (m : Nat → Nat) (attached : List (BitVec 64 × Nat)) (call : Nat)
    (args : List (BitVec 64)) : Prop :=
  let A := fun i => args.getD i 0#64
  match call with
  | 33 => FullAddr m (A 1) (A 2)
  | 38 => FullAddr m (A 1) (A 2)
  | 35 => FullAddr m (A 4) (A 5)
  | 64 => ∀ p ∈ attached, p.1.toNat % 2 ^ 32 = (A 0).toNat % 2 ^ 32 → p.1 = A 0
  | 170 => 0 ≤ sint (A 2)
  | _ => True

/-- An access to address zero. -/
def AtNull : Acc → Prop
  | .read a n => a = 0 ∧ n ≠ 0
  | .write a n => a = 0 ∧ n ≠ 0
  | .str a => a = 0
  | .map a _ => a = 0

/-- An access that changes the caller's memory. -/
def Changes : Acc → Prop
  | .write _ n => n ≠ 0
  | .map _ n => n ≠ 0
  | _ => False

end Verif.Touch
