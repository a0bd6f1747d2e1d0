import Verif.Dispatch
import Verif.SockAddr
import Verif.Getdents

/-!
# Which of the caller's memory a call touches

For every arm of `dispatcher` (`/repo/src/safeposix/dispatcher.rs` 211-957) the list of accesses to
the caller's memory, from the six raw 64-bit arguments: those made while the arguments are
extracted (`/repo/src/interface/types.rs` 220-850) and those made by the handler that is then run.

Simplifications.  Addresses are numbers: an access that would run over the end of the 64-bit
address space is not wrapped around.  An access is a range; in which order the bytes of one range
are touched, and whether some are touched twice, is left open.  What a handler finds in the system
(how many bytes a pipe holds, whether the descriptor is open, ...) is given by `World`, which is
arbitrary.  Where the host kernel is asked to fill or read a buffer of a given length, it is
taken to touch no byte beyond that length.
-/

namespace Verif.Touch
open Verif.Dispatch

/-- An access to the caller's memory. -/
inductive Acc
  /-- `n` bytes are read from address `a` on -/
  | read (a n : Nat)
  /-- `n` bytes are written from address `a` on -/
  | write (a n : Nat)
  /-- the C string at `a` is read up to and including its zero byte -/
  | str (a : Nat)
  /-- `n` bytes of address space from `a` on are mapped anew -/
  | map (a n : Nat)
  deriving DecidableEq, Repr

/-- The object behind the descriptor of a `writev`,
`/repo/src/safeposix/syscalls/fs_calls.rs` 2523-2775. -/
inductive Obj
  /-- a connected TCP socket of the host, 2528-2567 -/
  | host
  /-- a pipe, or a Unix socket, which is a pair of pipes, 2575-2658 -/
  | pipe
  /-- standard output, 2659-2668 -/
  | stream
  /-- a regular file or character device, 2669-2756 -/
  | file
  /-- anything else, 2757-2775: an error, nothing is touched -/
  | other
  deriving DecidableEq, Repr

/-- What a call finds: the caller's memory, and the state of the system as far as it decides
which accesses are made. -/
structure World where
  /-- the caller's memory, address by address -/
  mem : Nat → Nat
  /-- is the C string at this address valid UTF-8 -/
  utf8 : BitVec 64 → Bool
  /-- the handler returns with an error before it uses its pointers (bad descriptor, wrong kind
  of object, missing file, ...) -/
  early : Bool
  /-- how many bytes the object has to give, or takes -/
  amount : Nat
  /-- bytes a socket keeps from an earlier `MSG_PEEK` -/
  peeked : Nat
  /-- is it a stream socket -/
  stream : Bool
  /-- result of the handler, for the arms that look at it -/
  ret : Int
  /-- the address the handler reports -/
  addr : SockAddr.Addr
  /-- object of a `writev` -/
  obj : Obj
  /-- how many of its buffers a `writev` gets to before the pipe is full or broken -/
  steps : Nat
  /-- for the descriptors registered with an epoll object, in turn: is it ready -/
  ready : List Bool
  /-- length of the working directory's path -/
  cwd : Nat
  /-- length of the interface list -/
  ifs : Nat
  /-- entries of the directory, and the descriptor's position -/
  ents : List (Path.Str × Nat)
  pos : Nat
  /-- size of the segment named by a `shmat` -/
  segment : Nat
  /-- the caller's attachments: address and size -/
  attached : List (BitVec 64 × Nat)

/-- Little-endian number of `k` bytes at an address. -/
def num (m : Nat → Nat) (a : Nat) : Nat → Nat
  | 0 => 0
  | k + 1 => m a + 256 * num m (a + 1) k

/-! ## Sizes of the structures, `/repo/src/interface/types.rs` 10-157 -/

/-- `StatData` 33-51 -/
def sizeStat : Nat := 104
/-- `FSData` 12-27 -/
def sizeFs : Nat := 112
/-- `ShmidsStruct` 127-138 -/
def sizeShmid : Nat := 80
/-- `SigactionStruct` 142-148 -/
def sizeSigaction : Nat := 24
/-- `ITimerVal` 100-104 -/
def sizeItimer : Nat := 32
/-- `TimeVal`, `TimeSpec` 94-98, 106-110 -/
def sizeTime : Nat := 16
/-- `EpollEvent` 73-79 -/
def sizeEpoll : Nat := 8
/-- `PollStruct` 81-87 -/
def sizePoll : Nat := 8
/-- `PipeArray`, `SockPair` 60-72 -/
def sizePair : Nat := 8
/-- `libc::fd_set`: 1024 bits -/
def sizeFdSet : Nat := 128
/-- `libc::iovec` -/
def sizeIovec : Nat := 16

/-! ## Handlers -/

/-- Reading into a buffer: `readat`, `read_from_pipe`, `fillzero`, `fillrandom`, host `recvfrom`
(`/repo/src/interface/file.rs` 149-167, `pipe.rs` 403-458, `misc.rs` 268-286): at most `n` bytes,
and no more than there are. -/
def fillBuf (w : World) (a n : Nat) : List Acc := [.write a (min w.amount n)]

/-- Writing from a buffer: `writeat`, `write_to_pipe`, `log_from_ptr`, host `sendto`
(`/repo/src/interface/file.rs` 172-203, `pipe.rs` 211-284, `misc.rs` 174-178): at most `n` bytes. -/
def drainBuf (w : World) (a n : Nat) : List Acc := [.read a (min w.amount n)]

/-- `recv_common_inner_tcp` and `recv_common_inner_udp`,
`/repo/src/safeposix/syscalls/net_calls.rs` 1886-2114, 2117-2165: first the bytes kept from an
earlier peek, then the rest of the buffer; with `MSG_PEEK` (2) the new bytes are read back. -/
def recvBuf (w : World) (a n flags : Nat) : List Acc :=
  if w.stream then
    let bytecount := if w.peeked = 0 then 0 else min w.peeked n
    let left := n - bytecount
    (if w.peeked = 0 then [] else [.write a bytecount]) ++
      (if w.peeked ≠ 0 ∧ left = 0 then []
       else [.write (a + bytecount) (min w.amount left)] ++
         (if flags &&& 2 ≠ 0 then [.read (a + bytecount) (min w.amount left)] else []))
  else [.write a (min w.amount n)]

/-- `recv` on a descriptor; `read` on a socket goes the same way with no flags
(`/repo/src/safeposix/syscalls/fs_calls.rs` 1667). -/
def recvCall (w : World) (a n flags : Nat) : List Acc := if w.early then [] else recvBuf w a n flags

/-- `pack_dirents`, `/repo/src/interface/types.rs` 461-487: header, then padded name, record
behind record. -/
def packAccs : Nat → List Getdents.Rec → List Acc
  | _, [] => []
  | a, r :: rs =>
    .write a Getdents.clipped :: .write (a + Getdents.clipped) r.tail.length ::
      packAccs (a + Getdents.clipped + r.tail.length) rs

/-- The loop over the poll results in `epoll_wait_syscall`,
`/repo/src/safeposix/syscalls/net_calls.rs` 4995-5033: a ready descriptor's event is stored at
`events[count]`; the loop ends when `count` reaches `maxevents`. -/
def epollAccs (a max : Nat) : Nat → List Bool → List Acc
  | _, [] => []
  | count, r :: rs =>
    if r then
      .write (a + sizeEpoll * count) sizeEpoll ::
        (if count + 1 ≥ max then [] else epollAccs a max (count + 1) rs)
    else epollAccs a max count rs

/-- Element `i` of an `iovec` array: the element is read, then the buffer it describes. -/
def iovAcc (w : World) (iov i : Nat) : List Acc :=
  [.read (iov + sizeIovec * i) sizeIovec,
   .read (num w.mem (iov + sizeIovec * i) 8) (num w.mem (iov + sizeIovec * i + 8) 8)]

/-- `iovcnt as usize` of an `i32`: sign extension. -/
def usizeOf (v : BitVec 32) : Nat := (v.signExtend 64).toNat

/-- `writev_syscall`, `/repo/src/safeposix/syscalls/fs_calls.rs` 2513-2775;
`write_vectored_to_pipe`, `/repo/src/interface/pipe.rs` 329-373; `concat_iovec_to_slice`,
`iovec_to_ioslice`, `/repo/src/interface/misc.rs` 119-131, 156-174.  `iovcnt` becomes the length of
a slice; only the host's `writev` checks its sign. -/
def writevAccs (w : World) (iov : Nat) (iovcnt : BitVec 32) : List Acc :=
  if w.early then [] else
  match w.obj with
  | .host => if iovcnt.toInt < 0 then [] else (List.range iovcnt.toNat).flatMap (iovAcc w iov)
  | .pipe => if iovcnt = 0#32 then []
      else (List.range (min w.steps (usizeOf iovcnt))).flatMap (iovAcc w iov)
  | .stream | .file => (List.range (usizeOf iovcnt)).flatMap (iovAcc w iov)
  | .other => []

/-- `FIONBIO`, `/repo/src/safeposix/syscalls/fs_constants.rs` 83 -/
def FIONBIO : Nat := 21537

/-- Accesses of a handler on its decoded arguments; name and lines behind each row.
Handlers without a row use no pointer. -/
def handler (w : World) : Nat → List Val → List Acc
  -- stat fs_calls.rs 1169-1265, fstat 1311-1370: fields of `StatData`
  | 9, [_, .word b] => if w.early then [] else [.write b.toNat sizeStat]
  | 17, [_, .word b] => if w.early then [] else [.write b.toNat sizeStat]
  -- statfs 1415-1440, fstatfs 1468-1535: fields of `FSData`
  | 19, [_, .word b] => if w.early then [] else [.write b.toNat sizeFs]
  | 26, [_, .word b] => if w.early then [] else [.write b.toNat sizeFs]
  -- read 1580-1725 (a socket's bytes come through `recv_common`, 1667; for other objects `stream`
  -- is false), pread 1791-1890
  | 12, [_, .word b, .word n] => recvCall w b.toNat n.toNat 0
  | 126, [_, .word b, .word n, _] => if w.early then [] else fillBuf w b.toNat n.toNat
  -- write 2009-2200, pwrite 2244-2400
  | 13, [_, .word b, .word n] => if w.early then [] else drainBuf w b.toNat n.toNat
  | 127, [_, .word b, .word n, _] => if w.early then [] else drainBuf w b.toNat n.toNat
  -- send net_calls.rs 1593-1750, recv 2380-2385
  | 34, [_, .word b, .word n, _] => if w.early then [] else drainBuf w b.toNat n.toNat
  | 36, [_, .word b, .word n, .i32 f] => recvCall w b.toNat n.toNat f.toNat
  -- ioctl 4026-4101, `get_ioctl_int` types.rs 420-426: only `FIONBIO` looks at its pointer
  | 15, [_, .u32 q, .word p] =>
    if w.early then [] else if q.toNat = FIONBIO ∧ p ≠ 0#64 then [.read p.toNat 4] else []
  -- mmap 4413-4507, munmap 4552-4572
  | 21, [.word a, .word n, _, _, _, _] =>
    if n = 0#64 then [] else if w.early then [] else [.map a.toNat n.toNat]
  | 22, [.word a, .word n] => if n = 0#64 then [] else [.map a.toNat n.toNat]
  -- getdents 5422-5533
  | 23, [_, .word b, .u32 n] =>
    if w.early then [] else packAccs b.toNat (Getdents.getdents w.ents w.pos n.toNat).recs
  -- getcwd 5571-5598: path and zero byte, if they fit
  | 47, [.word b, .u32 n] =>
    if n = 0#32 then [] else if n.toNat < w.cwd + 1 then [] else [.write b.toNat (w.cwd + 1)]
  -- socketpair net_calls.rs 5110-5200, pipe 5301-5303, pipe2 5339-5400: two descriptors
  | 49, [_, _, _, .word p] => if w.early then [] else [.write p.toNat sizePair]
  | 66, [.word p] => if w.early then [] else [.write p.toNat sizePair]
  | 67, [.word p, _] => if w.early then [] else [.write p.toNat sizePair]
  -- epoll_ctl net_calls.rs 4717-4860
  | 57, [_, _, _, .word p] => if w.early then [] else [.read p.toNat sizeEpoll]
  -- shmat 5777-5829 with `map_shm` shm.rs 76-97
  | 63, [_, .word a, _] => if w.early then [] else [.map a.toNat w.segment]
  -- shmdt 5862-5924 with `unmap_shm` shm.rs 101-109: the attachment is looked up by the low half
  -- of the address (`shmaddr as u32`, 5793, 5869)
  | 64, [.word a] =>
    match w.attached.find? (fun p => p.1.setWidth 32 == a.setWidth 32) with
    | some p => [.map a.toNat p.2]
    | none => []
  -- gethostname net_calls.rs 4413-4440: "Lind" and a zero byte, cut to the length
  | 125, [.word b, .word n] => if n.toInt < 0 then [] else [.write b.toNat (min 5 n.toNat)]
  -- getifaddrs net_calls.rs 5240-5254
  | 146, [.word b, .word n] => if w.ifs < n.toNat then [.write b.toNat w.ifs] else []
  -- sigaction sys_calls.rs 739-769: the old action is written first
  | 147, [_, .word p, .word q] =>
    (if q = 0#64 then [] else [.write q.toNat sizeSigaction]) ++
      (if p = 0#64 then [] else [.read p.toNat sizeSigaction])
  -- sigprocmask sys_calls.rs 788-831
  | 149, [_, .word p, .word q] =>
    (if q = 0#64 then [] else [.write q.toNat 8]) ++ (if p = 0#64 then [] else [.read p.toNat 8])
  -- setitimer sys_calls.rs 833-866; only `ITIMER_REAL` (0)
  | 150, [.i32 t, .word p, .word q] =>
    if t = 0#32 then
      (if q = 0#64 then [] else [.write q.toNat sizeItimer]) ++
        (if p = 0#64 then [] else [.read p.toNat sizeItimer])
    else []
  -- writev
  | 170, [_, .word p, .i32 c] => writevAccs w p.toNat c
  | _, _ => []

/-! ## Extraction -/

/-- What `check_and_dispatch!` reads while it extracts the arguments: each C string it gets to
(`get_cstr`, `/repo/src/interface/types.rs` 313-334). -/
def argAccs (w : World) : List Kind → List (BitVec 64) → List Acc
  | [], _ => []
  | k :: ks, args =>
    (if k = .cstr ∧ args.headD 0#64 ≠ 0#64 then [.str (args.headD 0#64).toNat] else []) ++
      (match getArg w.utf8 k (args.headD 0#64) with
       | .error _ => []
       | .ok _ => argAccs w ks args.tail)

/-- One `check_and_dispatch!`: extraction, then the handler `h` on the values. -/
def plain (w : World) (ks : List Kind) (args : List (BitVec 64)) (h : List Val → List Acc) :
    List Acc :=
  argAccs w ks args ++ (match checkArgs w.utf8 ks args with
    | .error _ => []
    | .ok vs => h vs)

/-- Did the extraction succeed (otherwise the result is a negative error number). -/
def argsOk (w : World) (ks : List Kind) (args : List (BitVec 64)) : Bool :=
  match checkArgs w.utf8 ks args with
  | .error _ => false
  | .ok _ => true

/-- `get_sockaddr`, `/repo/src/interface/types.rs` 513-570: the family is read first, the
structure of that family when the length is accepted.  Also: was there an address. -/
def sockaddrAccs (w : World) (a : BitVec 64) (len : Nat) : List Acc × Bool :=
  if a = 0#64 then ([], false)
  else match SockAddr.getSockaddr (some (fun i => w.mem (a.toNat + i))) len with
    | .ok s => ([.read a.toNat 2, .read a.toNat (SockAddr.sizeOf s)], true)
    | .error _ => ([.read a.toNat 2], false)

/-- `copy_out_sockaddr`, `/repo/src/interface/types.rs` 572-628. -/
def copyOutAccs (w : World) (a l : BitVec 64) : List Acc :=
  [.read l.toNat 4, .write a.toNat (min (num w.mem l.toNat 4) (SockAddr.sizeOf w.addr)),
   .write l.toNat 4]

/-- Arms with an address going in: `bind` 388-396, `connect` 465-474, `sendto` 406-417. -/
def withAddr (w : World) (a l : BitVec 64) (ks : List Kind) (args : List (BitVec 64))
    (h : List Val → List Acc) : List Acc :=
  match getArg w.utf8 .uint l with
  | .error _ => []
  | .ok _ =>
    let r := sockaddrAccs w a l.toNat
    r.1 ++ (if r.2 then plain w ks args h else [])

/-- `get_duration_from_millis` of an argument and the check of a non-null array pointer, for
`poll` 627-634 and `epoll_wait` 728-747. -/
def timeOk (w : World) (t : BitVec 64) : Bool :=
  match getArg w.utf8 .int t with
  | .error _ => false
  | .ok _ => true

/-- `duration_fromtimespec`, `/repo/src/interface/types.rs` 752-778. -/
def timespecAccs (p : BitVec 64) : List Acc := if p = 0#64 then [] else [.read p.toNat sizeTime]

/-- `sem_timedwait`, `/repo/src/safeposix/dispatcher.rs` 931-937. -/
def timedSem (w : World) (args : List (BitVec 64)) : List Acc :=
  let arg := fun i => args.getD i 0#64
  match checkArgs w.utf8 [.uint] args with
  | .error _ => []
  | .ok _ => timespecAccs (arg 1)

/-- `cond_timedwait`, `/repo/src/safeposix/dispatcher.rs` 855-862. -/
def timedCond (w : World) (args : List (BitVec 64)) : List Acc :=
  let arg := fun i => args.getD i 0#64
  match checkArgs w.utf8 [.int, .int] args with
  | .error _ => []
  | .ok _ => timespecAccs (arg 2)

/-- `shmctl`, `/repo/src/safeposix/dispatcher.rs` 806-819: only `IPC_STAT` (2) takes the structure. -/
def shmctlArm (w : World) (args : List (BitVec 64)) : List Acc :=
  let arg := fun i => args.getD i 0#64
  match getArg w.utf8 .int (arg 1) with
  | .error _ => []
  | .ok _ =>
    if arg 1 = 2#64 then
      (if arg 2 = 0#64 then []
       else match getArg w.utf8 .int (arg 0) with
        | .error _ => []
        | .ok _ => if w.early then [] else [.write (arg 2).toNat sizeShmid])
    else []

/-- `epoll_wait`, `/repo/src/safeposix/dispatcher.rs` 728-747. -/
def epollWaitArm (w : World) (args : List (BitVec 64)) : List Acc :=
  let arg := fun i => args.getD i 0#64
  match getArg w.utf8 .int (arg 2) with
  | .error _ => []
  | .ok _ =>
    if ((arg 2).setWidth 32).toInt < 0 then []
    else match getArg w.utf8 .int (arg 0) with
      | .error _ => []
      | .ok _ =>
        if arg 1 = 0#64 then []
        else if timeOk w (arg 3) then
          (if w.early then [] else if ((arg 2).setWidth 32).toInt ≤ 0 then []
           else epollAccs (arg 1).toNat ((arg 2).setWidth 32).toInt.toNat 0 w.ready)
        else []

/-- `select`, `/repo/src/safeposix/dispatcher.rs` 609-626; `select_syscall`,
`/repo/src/safeposix/syscalls/net_calls.rs` 3364-3445: the sets are looked at up to bit `nfds`, the
first two are stored back as a whole. -/
def selectArm (w : World) (args : List (BitVec 64)) : List Acc :=
  let arg := fun i => args.getD i 0#64
  match getArg w.utf8 .int (arg 0) with
  | .error _ => []
  | .ok _ =>
    if ((arg 0).setWidth 32).toInt < 0 then []
    else
      (if arg 4 = 0#64 then [] else [.read (arg 4).toNat sizeTime]) ++
      (if ((arg 0).setWidth 32).toInt ≥ 1024 then []
       else
        (if arg 1 = 0#64 then [] else [.read (arg 1).toNat sizeFdSet]) ++
        (if arg 2 = 0#64 then [] else [.read (arg 2).toNat sizeFdSet]) ++
        (if arg 3 = 0#64 then [] else [.read (arg 3).toNat sizeFdSet]) ++
        (if w.early then []
         else (if arg 1 = 0#64 then [] else [.write (arg 1).toNat sizeFdSet]) ++
           (if arg 2 = 0#64 then [] else [.write (arg 2).toNat sizeFdSet])))

/-- `dispatcher`, `/repo/src/safeposix/dispatcher.rs` 211-957: all accesses of a call. -/
def touches (w : World) (call : Nat) (args : List (BitVec 64)) : List Acc :=
  let arg := fun i => args.getD i 0#64
  match call with
  -- BIND_SYSCALL, 388-396
  | 33 => withAddr w (arg 1) (arg 2) [.int] args (fun _ => [])
  -- CONNECT_SYSCALL, 465-474
  | 38 => withAddr w (arg 1) (arg 2) [.int] args (fun _ => [])
  -- SENDTO_SYSCALL, 406-417
  | 35 => withAddr w (arg 4) (arg 5) [.int, .ptr, .any, .int] args (fun vs =>
      match vs with
      | [_, .word b, .word n, _] => if w.early then [] else drainBuf w b.toNat n.toNat
      | _ => [])
  -- RECVFROM_SYSCALL, 427-463
  | 37 =>
    let recv := plain w [.int, .ptr, .any, .int] args (fun vs =>
      match vs with
      | [_, .word b, .word n, .i32 f] => recvCall w b.toNat n.toNat f.toNat
      | _ => [])
    if arg 4 = 0#64 ∧ arg 5 = 0#64 then recv
    else if arg 4 ≠ 0#64 ∧ arg 5 ≠ 0#64 then
      [.read (arg 5).toNat 4] ++ recv ++
        (if argsOk w [.int, .ptr, .any, .int] args ∧ w.ret ≥ 0 then copyOutAccs w (arg 4) (arg 5) else [])
    else []
  -- ACCEPT_SYSCALL, 482-510
  | 40 =>
    if arg 1 = 0#64 ∧ arg 2 = 0#64 then plain w [.int] args (fun _ => [])
    else if arg 1 ≠ 0#64 ∧ arg 2 ≠ 0#64 then
      plain w [.int] args (fun _ => []) ++
        (if argsOk w [.int] args ∧ w.ret ≥ 0 then copyOutAccs w (arg 1) (arg 2) else [])
    else []
  -- GETSOCKNAME_SYSCALL, 531-550
  | 144 =>
    if arg 1 = 0#64 ∨ arg 2 = 0#64 then []
    else plain w [.int] args (fun _ => []) ++
      (if argsOk w [.int] args ∧ w.ret ≥ 0 then copyOutAccs w (arg 1) (arg 2) else [])
  -- GETPEERNAME_SYSCALL, 511-530
  | 145 =>
    if arg 1 = 0#64 ∨ arg 2 = 0#64 then []
    else plain w [.int] args (fun _ => []) ++
      (if argsOk w [.int] args ∧ w.ret ≥ 0 then copyOutAccs w (arg 1) (arg 2) else [])
  -- GETSOCKOPT_SYSCALL, 558-583
  | 43 =>
    if arg 3 = 0#64 ∨ arg 4 = 0#64 then []
    else [.read (arg 4).toNat 4] ++
      (if num w.mem (arg 4).toNat 4 ≠ 4 then []
       else plain w [.int, .int, .int] args (fun _ => []) ++
         (if argsOk w [.int, .int, .int] args ∧ w.ret ≥ 0 then [.write (arg 3).toNat 4] else []))
  -- SETSOCKOPT_SYSCALL, 584-601
  | 44 =>
    if arg 3 ≠ 0#64 then
      match getArg w.utf8 .uint (arg 4) with
      | .error _ => []
      | .ok _ => if arg 4 ≠ 4#64 then [] else [.read (arg 3).toNat 4]
    else []
  -- SELECT_SYSCALL, 609-626
  | 46 => selectArm w args
  -- POLL_SYSCALL, 627-634; poll_syscall net_calls.rs 4485-4600 reads and writes each structure of the slice
  | 48 =>
    if arg 0 = 0#64 then []
    else if timeOk w (arg 2) then
      [.read (arg 0).toNat (sizePoll * (arg 1).toNat)] ++
        [.write (arg 0).toNat (sizePoll * (arg 1).toNat)]
    else []
  -- EPOLL_WAIT_SYSCALL, 728-747
  | 58 => epollWaitArm w args
  -- SHMCTL_SYSCALL, 806-819
  | 65 => shmctlArm w args
  -- COND_TIMEDWAIT_SYSCALL, 855-862
  | 80 => timedCond w args
  -- SEM_TIMEDWAIT_SYSCALL, 931-937
  | 94 => timedSem w args
  | _ =>
    match signature call with
    | none => []
    | some ks => plain w ks args (handler w call)

/-- `quick_read`, `quick_write`, `/repo/src/safeposix/dispatcher.rs` 169-190: the handlers of
`read` and `write` on the raw arguments, without extraction. -/
def quick (w : World) (call : Nat) (fd : BitVec 32) (b n : BitVec 64) : List Acc :=
  handler w call [.i32 fd, .word b, .word n]

end Verif.Touch
