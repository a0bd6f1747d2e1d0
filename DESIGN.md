# Formal model of Lind-Project/safeposix-rust: design

## 1. What is built

A Lean 4 model of the system-call layer of SafePOSIX (an in-process POSIX emulation: many "cages" = processes share one
address space, one in-memory inode table, pipes, ports, shared memory segments).  The model is a set of small total
computable functions over `List`, `Nat`, `Int`, `BitVec`, `Option` and plain structures.  Each definition cites the Rust
file and lines it follows and says where it simplifies.  Panics (`unwrap` on `None`, `panic!`, arithmetic underflow, slice
out of range) are an explicit outcome, never a default value; a thread that waits for ever is the outcome `blocked`.

The properties are in `properties.jsonl` (C01, C02, ...).  `MANIFEST.json` maps each to theorem names, with a note that says
what is missing where the status is `partial`.

Layout of `lean/Verif/`, for a subsystem `X`:

* `X.lean` – the model (definitions only, with citations);
* `XLemmas.lean`, `XInv.lean`, `XFrame.lean` – helper lemmas and invariants;
* `XSpec.lean` or the head of `XProps.lean` – the specification, independent of the model's helpers;
* `XProps.lean` – the property theorems, each with an `example` beside it in which a concrete non-trivial state meets its
  hypotheses;
* `XWitness.lean` (or the end of `XProps.lean`) – histories that show where the code departs from a property.

Where the code violates a property, the negation is proved from a concrete reachable witness (`..._violated`), and what does
hold is proved as `..._partial` (or under hypotheses named in the statement).

## 2. Trusted base

* Lean 4.33.0 kernel.  Axioms used by theorems: at most `propext`, `Classical.choice`, `Quot.sound`.  No own axioms, no
  `sorry`, no `native_decide`, no `bv_decide`.
* Faithfulness of the hand translation Rust → Lean.  The code was read, not run.
* Atomicity.  Explicitly interleaved models: the pipe transfer loops (`Pipe`), advisory locks (`AdvLock`), semaphores (`Sem`,
  one operation at a time on atomics), the descriptor table (`FdConc`), path calls (`NameConc`), calls on open files (`DataConc`), select/poll/epoll passes (`Select`: each look at a
  descriptor sees an arbitrary state), and those of C78, C79, C81-C84, C87-C91, C93, C95 (crashes inside calls, the log, condition
  variables, shared memory, vectored pipe writes, fork, epoll, blocking mode, locks, signals over fork, exec and exit, connected sockets, `flock` through descriptors, exit among threads).  In every other model a system call is one atomic step.
  The code takes per-object locks (`DashMap` shards, an `RwLock` per descriptor slot), so this is an assumption about
  schedules, not something proved.
* Waiting for ever on the locks of files, shards of `DashMap`s included, is modelled in `Locks` (C89), apart from the data; in the
  other interleaved models a step never waits.  Deadlocks of one thread with itself are also in the sequential models, as `blocked`:
  `fchdir` to the root, select for writing on a socket whose connection has just been made.
* The host.  `std::fs` files behave as byte arrays that survive process death in the order written, and a failure of power as
  `Power` says (one whole past content per file, a prefix of the log); what `libc` sockets answer
  is an argument of each operation (so theorems hold for every answer); the addresses `mmap` gives, `pthread` mutexes and clocks are arguments or
  are left out.
* `DashMap`/`HashMap` behave as finite maps; iteration order is an argument where it is observable (getdents, epoll_wait,
  the name found for an inode).
* The CBOR bytes written by `serde_cbor` are modelled from the format's specification (`LogFile`); `serde_cbor` itself is not
  in the repository.  The aligned eight-byte count of the log is stored at once (`torn_count_violated` shows why that
  matters).  UTF-8 validity of paths is a parameter.
* Host files left over from unlinked files after a crash are dropped at the next start in the model; the code leaves them, but
  never gives their numbers to another file.
* `cleartmp` at shutdown is a program of ordinary calls of cage 0 (`FsTools`); the shutdown itself is in `Recovery`.
* The host's side of the file tools that copy from the host (`cp_into_lind`, `update_into_lind`) is a finite tree of files with fixed contents; reading it does not fail. What any tool prints is not modelled, except whether a copy is reported as done.
* Not modelled: timestamps (atime/ctime/mtime), uid/gid values other than the defaults, memory safety of raw pointers, the
  memory behind `mmap`, IP packet transport, unix datagram sockets, threads waiting inside condition variables, performance,
  liveness except where stated.

### The model against the project's own tests

The tests in `/repo/src/tests/fs_tests.rs` were written by the authors of the code and say what each call answers.  140 of
its 154 tests are transcribed call by call, by a script that reads the Rust text, into `ConformFs1`-`ConformFs4`: 773 calls
with the answers expected, run on the model that the theorems are about (`Kernel.step`) and compared by the kernel (`decide +kernel`).
All 140 agree.  These are tests of the translation from Rust to Lean, not proofs of properties, and no claim in the manifest
rests on them.  Loops, threads and `unsafe` reads of returned buffers are written out as the calls they make; a test's steps that
use a unix socket are left out of three of them.  Left out: the three that fill the descriptor table, the three that use
socket pairs, and a test that starts the library twice; those about semaphores, shared memory and identity are in `ConformIpc`, those about domain sockets and socket pairs in `ConformUnix`, and a selection of those about socket options and internet sockets in `ConformNet` (transcribed by hand; the host's answers are put in).

### Restrictions on histories that appear in theorem statements


* `Tame` (`FsInv`/`KernelStep`): no dup2 of an epoll descriptor, no rename onto an existing name, no refused unlink, no
  pipe2 with one free slot, and the like – the calls after which the code itself breaks the counts (each has a witness).
* `Clean` (`PortsProps`, `ShmProps`): the port calls that do not lose a record; host `mmap` succeeds and free cage numbers.
* `Life`, `Synced`, `dom = []` (`Recovery*`): sessions that began on a new disk or after a clean restart, and shutdowns with no
  path recorded as that of a unix socket.
* `Reach` in the kernel theorems covers any number of clean restarts and crashes as well as calls.

## 3. Properties, models and proofs

| id | model | proof |
|----|-------|-------|
| C01 C02 | `Pipe`, `PipeSpec`, `PipeHist`, `PipeCap` | invariant over every schedule of writers and readers: read ++ buffered = written, buffered ≤ capacity; lifted to histories of the whole system |
| C03 C04 | `Pipe` | decision of 0/EAGAIN/EPIPE and of readiness, exact for one call; interleaving witnesses |
| C05 | `Kernel`, `KernelInv`, `KernelStep` | invariant: count = number of open ends, over every history of 33 calls of all cages |
| C06 | `AdvLock` | invariant over interleavings, refinement to a set of holders |
| C07 | `Sem` | value = initial + posts − waits over histories of all cages |
| C08 C09 C10 C11 C12 | `Kernel`, `FdProps` | per call: effect and frame, in every reachable state |
| C13 C14 C51 C55 | `FsInv`, `FsOps`, `FsTree`, `NsProps` | invariants of the inode table by induction over calls, restarts and crashes |
| C15 C19 C24 C25 C56 C62 | `Fs`, `NsCalls`, `NsAnswers` | exact answer and effect of each path call as a table over the situation, in every reachable state |
| C16 | `Kernel`, `RecoverySess` | `next` is monotone; numbers handed out are fresh |
| C17 C18 C46 | `Path`, `Fs`, `NsProps` | fold over components; equivalence of lookup with an inductive relation; normal form |
| C20 C21 C22 C23 C38 | `Kernel`, `IoProps`, `HistLemmas`, `HistProps` | per call, then refinement of whole histories to a fold of byte changes |
| C26 C28 C53 | `Recovery`, `RecoverySync`, `RecoveryInv`, `RecoverySess`, `RecoverySocks` | replay of the log = memory, over every history of a session; every crash point of start and stop |
| C27 | `LogFile`, `LogFileMore` | byte level: encoder/decoder round trip, every point of an interrupted append |
| C29 | `Getdents`, `DirDevProps` | loop over entries, any sequence of buffer sizes; through descriptors |
| C30 | `DevNo` | bit vectors, round trip both ways |
| C31 C32 C33 | `Ports`, `InetSock`, `PortsAnswers` | invariants over Clean histories; witnesses outside |
| C34 C35 | `Shm`, `ShmAnswers` | count of attachments = multiset of attachments, over histories |
| C36 C37 | `Signal` | algebra on 64-bit words, history theorems |
| C39 C57 | `Kernel`, `FdProps`, `IoProps` | flag algebra and frame |
| C40 C41 C49 C54 | `UnixSock`, `UnixSockInv`, `UnixBindProps`, `UnixSockAnswers`, `UnixCap`; `InetSock` | refinement to two queues per connection; state machine; names |
| C42 C43 C44 | `Select`, `PollProps`, `EpollProps` | loops over descriptors with arbitrary views in each pass; interest list refines a partial map |
| C45 | `Dispatch` | every 64-bit word, every call number; prototype table |
| C47 | `Handles` | tables refine a specification of what each handle designates |
| C48 | `SockOpt`, `SockOptAnswers` | bit algebra and history theorem |
| C50 | `Kernel` | frame theorem over every call |
| C52 | `Timer` | refinement to an ideal timer |
| C58 | `NoPanic`, `InetSockProps` | exact list of the calls that abort, in every reachable state |
| C59 | `IpText`, `LogFileMore` | round trip with a printer, exact acceptance for IPv4; the device list |
| C60 | `SockAddr` | byte layout, round trip, bounds |
| C61 | `FdConc` | small-step interleaving of lock operations, any number of threads; invariants over every schedule |
| C63 | `DirDevProps` | device reads and writes, standard streams |
| C64 | `InetSock`, `InetSockFrame`, `InetSockProps`, `InetSockHalf` | bytes in and out equal the bytes of the host's answers, over every history; frames |
| C65 | `NameConc`, `NameConcSolo`, `NameConcAll`, `NameConcWitness`; `NameConcSpec (specification)`, `NameConcWalk … NameConcSim (simulation)`, `NameConcProps`, `NameConcCheck` | one step per critical section; simulation of the atomic call; invariants over every schedule; forward simulation of the atomic specification by every disciplined schedule (linearizability); schedules that break the property |
| C66 | `FsTools`, `FsToolsLemmas`, `FsToolsCalls`, `FsToolsSpec`, `FsToolsProps`, `FsToolsWitness`, `FsToolsBig` | programs over the kernel's calls; induction over the depth of the tree, with a cut relation between the trees before and after |
| C67 | `DataConc`, `DataConcSpec (specification)`, `DataConcLemmas`, `DataConcSeq`, `DataConcSim`, `DataConcProgress`, `DataConcProps`, `DataConcWitness` | one step per effect and lock operation; forward simulation of the atomic specification by every schedule; a count of the moves left |
| C68, C69 | `Misc`, `MiscProps`, `MiscWitness` | decision logic: the request that reaches the host, or the answer, for every state |
| C70, C71 | `Ident`, `IdentProps`, `IdentWitness` | invariants over every history |
| C72 | `Power`, `PowerProps` | the set of contents that may be on the disk, over every history; the theorems of recovery |
| C73 | `Errnos`, `ErrnosProps` | the whole table by the kernel's evaluation; a specification table of Linux |
| C74 | `OpenTruncProps` | the effect of one call on every reachable state |
| C75 | `HostCopy`, `HostCopySpec (specification)`, `HostCopyLemmas`, `HostCopyFile`, `HostCopyProps`, `HostCopyTree`, `HostCopyUpdate`, `HostCopyUpdateTree`, `HostCopyWitness` | programs over the kernel's calls; a growth relation between the trees before and after; mutual induction over the host tree |
| C76 | `FdAnswers`, `FdAnswersWitness` | The reasons POSIX gives are an inductive relation between a call, what its descriptor is open on, the descriptor's flags and an error. Every call on a descriptor is compared with it by cases on what the descriptor is open on; the cases in which the code differs are a second relation, proved exact in both directions. |
| C77 | `UnixRefs`, `UnixRefsStep`, `UnixRefsProps`, `UnixRefsWitness` | Invariant: the count of each end of each direction is the number of descriptors whose socket has that end plus one while a connection waits to be accepted; preserved by every orderly call. The answers of recv and send are read off the counts. |
| C78 | ``MidCrash``, ``MidCrashProps`` | Every call is shown to append only records that hold an inode as it was before or as it is after the call; so the log cut anywhere inside a call gives, number by number, one of the two states. Calls with at most one record are atomic. Four counterexamples for the calls with two records. |
| C79 | ``LogConc``, ``LogConcProps`` | Threads change, serialise and append in separate steps. Invariants over all interleavings: every record was once the state of its inode; the present state is owed, serialised or logged; without overlap every serialised record is fresh. Three counterexamples. |
| C80 | `PortsConc PortsConcProps PortsConcWitness` | Interleaving model: a call on a given port is one step (it holds the entry of the port throughout), a search for an ephemeral port takes the lock of its counter and then makes one step per candidate. Invariant of the sequential model kept by each step; a path predicate with the states passed gives what a refused search has seen; the counterexample fills the range by induction. |
| C81 | `Rendezvous RendezvousProps` | Interleaving model of the table with one place per path, the condition variable of each connect and the lock on the name. Invariant over all runs (what is in the table, who was woken, who was got), a second one for runs in which the callers take turns; the waiting for ever is itself an invariant. |
| C82 | `ShmConc ShmConcLemmas ShmConcProps ShmConcWitness` | Interleaving model of the four calls with the locks on segments and on the attachment list of each cage. Invariants over all runs (who has which lock, counts, identifiers, keys), three more for runs in which one pair of calls does not overlap; the deadlock is itself an invariant; the witness runs are computed and shown to be runs of the relation. |
| C83 | `PipeConc PipeConcLemmas PipeConcProps` | The step-by-step pipe of `Pipe` with vectored writes on top, which take and give back the lock once per buffer, and readiness checks that need the lock. Invariants over all schedules; decreasing measures bound the steps of calls that must not wait; that a full pipe blocks everybody is itself an invariant. |
| C84 | `FdFork FdForkLemmas FdForkProps` | Forks that copy one slot per step, layered over the concurrent table of `FdConc`; an induction over schedules finds for each slot the moment it was copied; counts by an invariant summing over the children. |
| C85 | `TimeArgs TimeArgsProps` | Exact 32- and 64-bit arithmetic of the conversions, for debug and release builds; that a fraction is never kept is a divisibility argument (10^9 - 1 is odd). |
| C86 | `StatBuf StatBufProps` | The whole buffer before and after; the file is the one the path leads to in the sense of following directory entries; the theorem about later calls is an induction over the history. |
| C87 | `EpollConc EpollConcSpec EpollConcLemmas EpollConcFrame EpollConcProps` | Interleaving model with the reader-writer lock of each descriptor; a forward simulation into a specification that does each call at once (history), lock ownership as an invariant, deadlock freedom by the order of the locks, the violations by concrete schedules and an invariant that lasts for ever after. |
| C88 | `BlockMode BlockModeLemmas BlockModeProps` | Interleaving model of descriptors, handles and calls in progress, the host socket as a mode and an oracle for readiness; an invariant about calls in progress by induction over the schedule, a second one for programs that never ask for O_NONBLOCK, a frame argument for the mode while undisturbed, the violations by concrete schedules. |
| C89 | `Locks LocksLemmas LocksCalls LocksProps` | Interleaving model in which each call is the list of locks it takes and gives back, the hash and the kind of shards being parameters; every call shown to take locks in ascending order of class, so that from a stuck state one could climb for ever; a weight for termination; the violations by knots (sets of threads each waiting for one of them), which no step undoes. |
| C90 | `Life LifeLemmas LifeProps` | State machine over the table of cages, the timers with their threads and the two-step calls exec and exit, with ghost fields for who owns a thread and who got a number; an invariant by induction over all histories; a second one for histories in which threads are announced in time; what a process that is gone leaves behind is shown to stay for ever; the rest by concrete histories. |
| C91 | `Duplex DuplexLemmas DuplexProps` | Interleaving model with a lock for each descriptor and each socket and a buffer for each direction; invariants (who holds which lock, received plus buffered equals sent plus the part of the send that is going on) by induction over all schedules; the hangs by invariants over all continuations. |
| C92 | `DirWalk DirWalkProps` | The table as a list of places, with getdents as in C29 on the entries in the order of the places; invariants relating names found to names before the position, by induction over all histories with conditions on each change; the negations for all directories (first call, changes, any further calls). |
| C93 | `FlockConc FlockConcSpec FlockConcLemmas FlockConcProps` | Threads, slots of descriptors as readers-writer locks with a queue for writers, and the locks of C06 shared by copies of a descriptor; invariants by induction over all schedules, and knots that no step undoes. |
| C94 | `SemShm SemShmSpec SemShmLemmas SemShmStep SemShmProps SemShmWitness` | The shared memory of C34 with the tables of semaphores of all processes and exact 32-bit arithmetic with and without overflow checks; an invariant (what is at the same byte of a segment is the same in all tables) by induction over all histories. |
| C95 | `ExitConc ExitConcSpec ExitConcLemmas ExitConcStep ExitConcFacts ExitConcProps ExitConcWitness` | Threads of one process, step by step between locks, with the locks that waiting calls keep; the other processes as one environment; an invariant (counts are what others hold plus what is not yet released here) by induction over all schedules, and a measure for the loop of exit. |
| C96 | `NamesKept NamesKeptOps NamesKeptSpec NamesKeptProps NamesKeptWitness` | On the kernel model: for each call, which entries of which directories it may add and remove; a path is carried from one tree to the other along its entries, with the fact that a directory has one path; induction over histories. |
| C97 | `Touch TouchSpec TouchLemmas TouchArms TouchNull TouchProps TouchWitness` | Model: per dispatcher arm, the list of accesses to caller memory made while checking arguments, by the call and when copying results out, over the same argument checks as C45. Specification: per prototype, what is handed over. Proof arm by arm. |
| C98 | `ListStatProps` | On the kernel model: reading a directory finds its entries (C29); by the tree invariant the entries, the dots among them, are what the paths below lead to, and stat tells the number of what a path leads to (C86). |
| C99 | `Pipeline PipelineLemmas PipelineInv PipelineProps PipelineWitness` | Two programs on the kernel model, their calls and those of others in any order. Invariant: output, what the consumer holds, the pipe, what the producer holds and the unread input make up the input; end of file needs the producer's write end closed (C05). Progress by a measure that every effective call lowers. |
| C100 | `FdBits FdBitsLemmas FdBitsProps` | Sets as sixteen 64-bit words in memory, select with its own translation between host numbers and descriptors; a refinement proof to the model on sets of C42, whose theorems then hold of the bits in memory. |
| C101 | `SockNew`, `SockNewSpec`, `SockNewLemmas`, `SockNewProps` | `socket` and `socketpair` on bit vectors of 32 bits and a table of 1024 entries; the specification adds up the numbers of the manual page instead of masking bits; new sockets by an invariant over all histories; the two failures of `socketpair` on a table filled by a history of 1021 calls |
| C102 | `InetName InetNameLemmas InetNameRange InetNameProps` | getsockname and getpeername on the model of internet sockets (C49). A local address stays in every step except shutdown, a remote one in every step except connect, hence by induction over histories; the range of ports by an invariant on the counter the search starts from. |
| C103 | `Replace ReplaceLemmas ReplaceProps ReplaceCrash ReplaceWitness` | A program that writes and renames, on the kernel model, interleaved with any other calls (effect-level frame condition). Invariant: until the rename the old name leads to the old bytes, and what is written plus what is left is the new content. rename over a name in use is treated separately, as the state after it is not one of the tree invariant of C13; the crash theorem follows the log through that call. |
| C104 | `FsShow FsShowLemmas FsShowSpec FsShowProps` | ls and tree as programs of system calls that carry their output. Induction on the depth of the tree; inside, induction on the rounds of getdents, each of which shows a further part of the directory, and on the names of a buffer. Between the calls only counts of open descriptors differ from the first state, so paths are compared with that state. |
| C105 | `LockFile LockFileProps` | Programs on the kernel model. Invariant: nobody has the lock and the name leads nowhere, or exactly one has it and the name leads somewhere; other calls keep it by the theorems on paths that stay (C96), the crash theorem uses C26. The violation is a schedule of the finer model of C65. |
| C106 | `Rlimit RlimitProps` | The two calls as total functions of their arguments, histories of kernel calls mixed with them; the table bound is the kernel invariant, the refusal part is C08. |
| C107 | `Confine ConfineLemmas ConfineProps` | A set of entitled cages is carried along a history, growing only by open/pipe2 and along fork and exec. Each call is examined: every descriptor afterwards is one for an object the same cage had before, or inherited, or just made. Untouched content by C01's accounts, untouched counts by the kernel invariant. |
| C108 | `Redirect RedirectProps RedirectPipe` | A plan says for every number which original it stands for; induction over the history keeps the table as planned, other cages' calls leaving it alone. For the pipeline, C107's confinement shows that nobody outside the three holds an end, the plans say what the three hold, and C03's counts give end of file. |
| C109 | `FsCmd FsCmdProps FsCmdRmdir` | The words are parsed by a function and the three loops run on the kernel model. Induction over the list composes the exact effect of one call; names given twice or made within names just made are covered because the effects are stated on all paths. |
| C110 | `Follow FollowProps FollowWitness FollowConc` | Invariant over all runs: the writer's position is the length of the file and the follower's is where it started plus what it has got. Calls of others keep the content by C20's list of the calls that change a file, and the two descriptors by C50's isolation. For threads: the schedule's order from C67 is turned into such a run. |
| C111 | `LockedAppend LockedAppendProps LockedAppendWitness` | C105's invariant gives one holder; a second invariant says that a holder that has moved to the end stands at the length of the file. All other calls keep the file by C20's list of changing calls and the writers' descriptors by C50. |
| C112 | `Mailbox MailboxProps MailboxWitness` | Invariant over the moves: posted = claimed ++ what the name leads to. link and rename by their effect theorems (C62, C24), failed calls by C25, other calls by C96, the crash by C26's path theorem; the race by C65's witness. |
| C113 | `Records RecordsProps RecordsConc RecordsWitness` | Invariant: the bytes at the place of each record are the ones written last (C20's description of pwrite and pread, arithmetic of places). For threads: C67's linearization gives a run of atomic calls, simulated by a small separate table machine. |
| C114 | `AnyLock AnyLockProps AnyLockWitness` | As for C105, with the effects of mkdir, link and rmdir (C15, C62). The violation is a schedule of the finer model of C65. |
| C115 | `Txn TxnProps TxnWitness LogCrash` | Invariant that joins those of C113 and C114 with the log being a sequence of whole transactions and at most one open one; updates by induction over the transactions; the crash by C26. |
| C116 | `Scratch ScratchProps ScratchWitness ScratchCrash` | Every path after a call comes from a path before it or leads to something new and empty (case by case over the calls that make names, from their effect theorems), so a file without a path stays so. Descriptors by C107's origin theorem with `open` excluded; content by C20's list of the calls that change a file; the end by C13. Crash and shutdown: the link count is the number of names (C14), 0, so the check of link counts or the last close drops the inode, and the next number is above every number logged. |
| C117 | `Alias AliasProps AliasWitness` | The walk of either path ends at the same inode (C18), and these calls use nothing else of the path when it exists; histories by induction; for chdir, a directory has one path. The remaining name after unlink by C96's names_kept with the fact that a name of a file is no prefix of another path; crash from C26. |

## 4. Disagreements between code and property

Each is a theorem about the model, proved from a concrete history or input.

`AdvLockProps`

* `flock_two_opens_violated` – C06 violated: two opens of one file have separate locks, so both obtain the exclusive lock.
* `flock_nb_spurious_violated` – C06 violated: `LOCK_NB` may fail with EAGAIN although nobody holds the lock, when another thread is just inside the lock's inner mutex.
* `flock_foreign_unlock_violated` – C06 violated: a caller that holds nothing can release another's exclusive lock, after which a second exclusive lock is granted while the first is still held by its owner.

`AnyLockWitness`

* `dir_lock_two_violated` – C114, violated: two threads make the directory at the same time, and both are told that they made it.

`BlockModeProps`

* `recv_undoes_violated` – C88, violated. A descriptor of a TCP connection is set not to block, and `F_GETFL` says so ever after. A `recv` finds nothing, says so at once, and thereby sets the host socket to blocking: the next `send` without room in the buffer waits.
* `set_too_early_violated` – C88, violated. `fcntl` before the first `bind`, `connect` or `listen` has no effect on `connect` and `send`: the host socket is made later, to block. The usual `socket`, `fcntl(O_NONBLOCK)`, `connect` waits for the connection.
* `cleared_too_early_violated` – C88, violated. The other way round: a socket that was made with `SOCK_NONBLOCK` and then set to block does not wait in `connect`.
* `accepted_violated` – C88, violated. A connection accepted from a listening descriptor that does not block is said not to block either, but its `send` waits.
* `copies_disagree_violated` – C88, violated. Descriptors that `dup` or `fork` made share the mode that `send` goes by, but not the flag: after the copy was set not to block, the other descriptor still says that it blocks, and its `send` comes back with `EAGAIN`.
* `udp_second_violated` – C88, violated. On a UDP socket `recv` goes by the mode of the host socket: if the flag was set before there was one, each `recv` that finds nothing takes a second.
* `held_up_violated` – C88, violated. A `send` that waits keeps everybody else from the socket: a `recv` that should not wait, on another descriptor of the same socket, does not even begin, and neither can `fcntl` on either descriptor.

`DataConcWitness`

* `stale_size_log_violated` – C67 says nothing of the log, and cannot: the record of an inode is taken and appended in two steps that nothing keeps together. Two threads write to one file through two descriptors; both writes return, three bytes are there and `stat` says so. But the last record in the log is the one of the shorter write: after a crash the file has one byte, and the two others of a write that returned are lost. Made one after the other in either order, the same calls leave a log that gives back the three.

`DirWalkProps`

* `rm_violated` – C92 does not hold: a program that lists a directory, removes what it found and goes on listing (as `rm -r` does) misses as many entries as it removed: they stay in the directory, and no later call finds them.
* `twice_violated` – C92 does not hold: if a name is entered at a place before the position, the entry found last is found again.
* `grow_violated` – C92 does not hold: if the table is put anew while a program is half through, it may be shown the first half again and the second half never, although nothing of either was touched.
* `seekdir_violated` – C92 does not hold of the positions in the records (`d_off`, which `telldir` gives out): going to that of the first record fails, or leads elsewhere than to the second entry.
* `tell_violated` – C92 does not hold of `lseek`: after somebody has removed an entry, a program at the end of the directory is not told its position.

`DispatchProps`

* `null_address_violated` – The exception: `mmap` and `shmat` refuse a null address, which asks the system to choose one in POSIX (the trampoline in front of this library always passes an address).

`DuplexProps`

* `slot_violated` – C91 does not hold for descriptors that two threads use: while one waits for data in `recv`, no call of another on the same descriptor returns, not even one that need not wait: no `send`, no select or poll, no `recv` that is not to block, no `close` (and so no `exit`, which closes all). It goes on until somebody sends to the socket or leaves the other side.
* `duplex_violated` – C91 does not hold: one thread waits for answers on a descriptor, another sends the questions on the same descriptor, and a third, at the other end, waits for a question before it answers. The question is never sent, and none of them ever returns, although there is room for it.
* `full_violated` – C91 does not hold, even if every thread has a descriptor of its own: both sides send more than fits, as they may, with a thread ready to receive on one side. The send has the socket while it waits for room, the receive does not get it although data are there, and none of the three ever goes on.

`EpollConcProps`

* `zero_without_limit_violated` – C87, violated: a wait without a time limit returns only with an event (or an error). Here it returns 0: another thread closes a registered descriptor during the wait, poll counts it as an event (`POLLNVAL`), and epoll hands out nothing for it.
* `add_while_waiting_violated` – C87, violated: a descriptor added to the list while a thread waits counts for that wait, and `epoll_ctl` does not wait. Here thread 1 waits on a list with descriptor 4 only, thread 2 adds 5, which is readable all the time: as long as 4 is not readable and the time is not up, neither call returns, however long the two threads go on.
* `ctl_returns_violated` – C87, violated: every `epoll_ctl` returns. Two threads that each name the other's epoll descriptor (alone, each would get `EBADF`) stop for ever, whatever the other threads do.
* `fork_shares_list_violated` – C87, violated: after `fork`, parent and child have one epoll instance, so that what one registers the other finds. Here each has its own list: the parent adds 5, and the child is told that 5 is not registered when it changes it.

`ErrnosProps`

* `unknown_host_error_violated` – C73 violated: the host answers `ERFKILL` or `EHWPOISON`, which Linux documents, and the process ends.

`ExitConcWitness`

* `hang_violated` – **C95 fails.** A thread waits for bytes of a pipe that only its own process can write, and another thread exits: `exit` waits for the lock of that descriptor, which the reader keeps until there are bytes or no writers, and the write end is a higher descriptor that `exit` never reaches. Whatever the two threads and the other processes do from then on, the process is never gone, keeps both ends, and its `exit` has not returned. (POSIX: `exit` ends all threads. Here the caller of the library would have to cancel the reader first, `lindcancelinit`, `/repo/src/safeposix/dispatcher.rs` 954.)
* `leak_violated` – **C95 fails.** A thread that copies a descriptor while another thread exits gets a slot that `exit` has already passed: the process is gone, nobody holds the write end of the pipe any more, yet it is counted once, and the process that reads the pipe waits for ever instead of being told end of file.
* `double_violated` – **C95 fails.** A thread closes a descriptor while another thread exits: the end is given back twice, and the reader is told end of file although a third process still has the pipe open for writing, and can write to it.
* `wrap_violated` – **C95 fails.** The same when the process had the last write end: the counter goes below 0, to 4294967295, and the reader waits for ever.

`FdAnswersWitness`

* `stream_answer_violated` – C76, violated: reading standard input, which is open for reading, is answered with EOPNOTSUPP; and `writev` to it, which is not open for writing, succeeds.
* `fstat_socket_violated` – C76, violated: the state of a socket cannot be asked for with `fstat` (EOPNOTSUPP).
* `fchmod_answer_violated` – C76, violated: `fchmod` of a pipe, and of a file with the sticky bit, is answered with EINVAL.
* `wrong_error_violated` – C76, violated: `getdents` on a pipe is answered with ESPIPE instead of ENOTDIR, and `writev` to an instance of epoll with EOPNOTSUPP instead of EINVAL.
* `dup_epoll_violated` – C76, violated: an instance of epoll cannot be duplicated (EACCES).
* `seek_answer_violated` – C76, violated: a position beyond the last entry of a directory is refused (EINVAL), and from where a device is to be positioned is not looked at.
* `negative_answer_violated` – C76, violated: a negative argument of `F_SETFL` is refused (EINVAL), and a negative offset aborts the program.
* `unknown_device_violated` – C76, violated: a device the code does not know is opened, and then neither read nor written (EOPNOTSUPP).
* `dup_closed_violated` – C76, violated: `dup(0)` succeeds although descriptor 0 is closed.

`FdBitsProps`

* `select_except_violated` – The exception set is left as it was, so that after a successful call its bits are on although no descriptor has an exceptional condition; POSIX says that they are off then.

`FdConcProps`

* `double_close_violated` – Two threads close descriptor 0 at the same time: both calls succeed and both release the object, so its count is 0 although descriptor 1 still holds it.
* `close_dup_violated` – dup of a descriptor that is being closed: the object has no reference left, and the duplicate is made all the same.
* `dup2_overwrites_violated` – dup2 onto a free descriptor number that another thread's open receives meanwhile: the opened object's descriptor is overwritten and its reference is never released.
* `dup2_deadlock_violated` – Two threads that call dup2 on the same two descriptors in opposite order wait for each other for ever, and everybody who uses either descriptor afterwards waits with them.
* `lowest_violated` – open does not return the lowest free number when another thread merely looks at that number, and reports a full table although the only free number is free all the time.

`FdForkProps`

* `fork_snapshot_violated` – A child does not get the descriptors the parent had at any one moment: an object for which the parent had an open descriptor at every moment of the `fork` can be missing from the child altogether. `fork` copies the table slot by slot under separate locks (src/safeposix/syscalls/sys_calls.rs 205-284), so another thread can move a descriptor from a slot still to be copied to one already copied.
* `fork_panics_violated` – A `fork` can bring its thread down although every thread uses descriptors with discipline: `close` releases the object of a descriptor before it empties the slot (src/safeposix/syscalls/fs_calls.rs 3600-3787 and 3835-3842, separate locks), and a `fork` that looks at the slot in between fails to find the inode of a deleted file (src/safeposix/syscalls/sys_calls.rs 221, `unwrap`). No child appears, and the same calls one after the other are harmless.

`FdProps`

* `dup_zero_violated` – C08, violated: `dup(0)` returns 0, a number that is not free, and makes no descriptor.
* `close_range_violated` – C10, violated: a number outside the table ends the process instead of giving EBADF.
* `dup_offset_violated` – C09, violated: a copy has its own position. After `lseek(3, 0, SEEK_SET)` the copy 6 is still at 3.
* `fork_offset_violated` – C12, violated: the same for `fork`.
* `dup2_self_violated` – C09, violated: `dup2(9, 9)` succeeds although 9 is not open.
* `dup2_epoll_violated` – C09, violated: `dup2(6, 3)` with an epoll descriptor 6 fails, but it has released what 3 designates and left 3 open: once the file is unlinked, a read of 3 aborts the process.
* `fork_streams_violated` – C12, violated: the child has standard input although its parent closed it.
* `fork_cwd_violated` – C12, violated: `fork` aborts the process if the working directory was removed.
* `pipe2_leak_violated` – C05, violated: with exactly one free number `pipe2` fails but leaves a descriptor for the read end and a count of one writer, although no descriptor is a write end.

`FlockConcProps`

* `use_violated` – C93 violated: two threads lock a file, write to it and unlock it, through one descriptor: the one that has the lock hangs in `write`, for it waits for the slot that the other keeps while it waits for the lock.
* `close_violated` – C93 violated: the same with `close`, which should release the lock.
* `unlock_violated` – C93 violated: with a third thread that reads the file, `flock(LOCK_UN)` itself hangs, and a request with `LOCK_NB` waits for ever.
* `relock_violated` – C93 violated: a lock belongs to the open file, so that asking for it again, or through a copy of the descriptor, should succeed; the thread hangs.
* `exit_violated` – C93 violated: a process one of whose threads waits for a lock cannot end (`close` of descriptor 5, its copy of 3) while the owner of the lock, in another process, keeps it.

`FollowWitness`

* `two_writers_violated` – C110, violated: with two writers who both asked for O_APPEND no record is lost. Process 1 opens the log to append as well; the record of process 0, written after that, is overwritten by that of process 1 though both calls report success.
* `emptied_log_violated` – C110, violated: a follower survives the log being emptied. It has read two bytes; when the log is truncated, its next read aborts.
* `emptied_append_violated` – C110, violated: a writer who asked for O_APPEND writes at the end of a log that was emptied. It writes where the end was; the log begins with a zero byte for every byte that was in it.

`FsCmdProps`

* `surplus_arguments_violated` – C109, violated: a command is not carried out when its arguments make no sense. `format` takes none, but `format /tmp` formats the whole file system; `tree` shows the first of its arguments and says nothing of the others.
* `rmdir_failed_violated` – C109, violated: a directory that `rmdir` does not remove is as it was. Here `/a` is not empty: it is not removed, but its permissions are those of a directory that anybody may write. The same happens to a file that is named by mistake.

`FsShowProps`

* `odd_dir_violated` – C104, violated: a directory made with type bits in its mode (`mkdir("/d", 0100777)` is accepted) is shown as a file: `ls` prints no slash behind it, `tree` does not show what is in it.
* `show_full_violated` – C104, violated: a concrete case of `show_full`, the table filled by `dup`.

`FsToolsBig`

* `big_dir_violated` – C66, C53, violated: with four files in `/tmp` whose names take 20000 bytes each, clearing `/tmp` (as is done at start and at shutdown), or deleting its tree, returns and leaves one of them there.

`FsToolsWitness`

* `odd_mode_violated` – C66, violated: a directory made with type bits in its mode (`mkdir("/d", 0100777)` is accepted) is taken for a file. Deleting the tree unlinks it, which is refused, and returns without a word; the directory is still there, with everything in it.
* `no_descriptor_violated` – C66, violated: a concrete case of `no_descriptor`.

`GetdentsProps`

* `getdents_small_buffer_violated` – A buffer between 19 bytes and the size of the next record is accepted, and the answer is 0, which also means end of directory: the remaining entries are not listed.
* `getdents_long_name_violated` – The record length field has 16 bits: a name of 65510 bytes makes a record whose length reads 0.

`HandlesProps`

* `trylock_error_sign_violated` – A failed trylock is not reported as an error number: the result is a positive 16, where the other calls of this interface report errors as negative numbers.

`HostCopyWitness`

* `copy_to_directory_violated` – C75 (copying to a directory of the Lind file system). A file copied to a path that is a directory (as `cp file /dev` would be meant) ends the whole program by a failed assertion; an empty one is reported as copied, although no file with its content is there.
* `copy_to_root_violated` – C75 (copying to the root). A file copied to `/` ends the whole program: the path has no parent.
* `copy_to_device_violated` – C75 (copying to a device). A file copied to `/dev/null` is reported as copied; nothing holds its content.
* `copy_empty_directory_violated` – C75 (empty directories). An empty directory of the host is not copied: nothing is done, and nothing is reported.
* `update_empty_violated` – C75 (updating an empty file). An empty file of the host whose directory is not there yet ends the whole program: the open that creates it for the comparison fails, and its error number is used as a descriptor.
* `update_special_violated` – C75 (updating a tree with a special file). A FIFO or a socket anywhere in the directory of the host ends the whole program, where the copy leaves it out.

`IdentWitness`

* `first_uid_violated` – C70, violated: the first time a program asks, its user, and each of the other three, is -1, also after `exec`.
* `orphan_violated` – C70, violated: after its parent has ended, a process is still told the parent's number, and that number may meanwhile be another process's.
* `exec_number_violated` – C70, violated: a program replaced by `exec` gets the number given to `exec`; its children are told the old one.
* `unregistered_thread_violated` – C71, violated: a thread that the runtime has not registered, or has removed, ends the whole process at its next cancellation point; every thread of a new process starts so.

`InetNameProps`

* `name_unbound_violated` – C102. Asking an unbound socket of version 6 for its address aborts the program.
* `name_connected_violated` – C102. A socket that was connected without `bind` has a port, which is taken from the table, but reports port 0.
* `name_accept_violated` – C102. The descriptor of an accepted connection reports another port than the one the client connected to.
* `name_refused_violated` – C102. A refused `bind` leaves its address on the socket: a second socket reports the port the first one holds.
* `peer_pending_violated` – C102. A connection that is not made yet, and a refused `connect` of a datagram socket, leave a peer.
* `name_shutdown_violated` – C102. After both sides were shut down one after the other the address is gone, while the peer is still reported.

`InetSockWitness`

* `reopened_violated` – C49. A direction that was shut down opens again with a third `shutdown`: after write, read, read, `send` goes through to the host.
* `shutdown_unconnected_violated` – C49, C58. `shutdown` on a socket that was never connected succeeds, and the next `send` or `recv` aborts the program.
* `accept_full_violated` – C08. With every descriptor in use, `accept` returns the number of the listening socket as if it were a connection.
* `connect_port_leak_violated` – C32, C64. `connect` takes a port for the socket but does not record it: after `close` no socket is left and the port is still taken.
* `connect_retry_violated` – C64. A `connect` that the other side refuses keeps its port, and trying again takes another.
* `accept_port_violated` – C64. An accepted connection reports a local port other than the one the client connected to.
* `accept_lost_violated` – C64. After a failed `bind` to an address of another machine, `listen` succeeds, `accept` takes a connection from the host and loses it.
* `accept_abort_violated` – C58. There, `shutdown` fails and takes the address away, and the next `accept` aborts the program.
* `rebind_violated` – C64. After a failed `bind` no other address can be bound.
* `steal_port_violated` – C32. Closing a socket whose `bind` failed gives away the port of another socket, which a third can then bind.
* `send_nowhere_violated` – C58. `send` on a datagram socket connected to the unspecified address with port 0 never returns: the stack overflows.
* `datagram_peek_violated` – C64. MSG_PEEK on a datagram socket is ignored: the call does what it does without it, and the datagram is gone.
* `datagram_source_violated` – C64. A connected datagram socket returns datagrams of anyone.
* `connect_then_send_violated` – C64. After a non-blocking `connect`, `send` is refused until a `recv` was tried, however long the connection has been made.
* `recv_v6_violated` – C64. A first `recv` without an address on an IPv6 datagram socket is refused, because the port is looked for in the other family.

`IoProps`

* `read_past_end_violated` – C20, violated: reading at a position beyond the end of the file, reached by a legal `lseek`, aborts the process instead of returning 0.
* `read_after_truncate_violated` – C20, violated: another descriptor's truncation is enough to make a plain `read` abort.
* `negative_offset_violated` – C20, violated: a negative offset aborts the process instead of giving EINVAL.
* `empty_write_violated` – C20, violated: a write of no bytes beyond the end makes the file longer.
* `append_violated` – C20, violated: a descriptor opened with `O_APPEND` writes at its own position, not at the end.
* `lseek_wrap_violated` – C21, violated: `lseek` to 2^31 moves the position there but returns a negative number.
* `setfl_cloexec_violated` – C57, violated: `F_SETFL` clears close-on-exec.
* `setfd_one_violated` – C57, violated: `F_SETFD` with `FD_CLOEXEC` (1), as POSIX has it, clears the bit instead of setting it.

`IpTextProps`

* `v6_hexadecimal_violated` – Groups are hexadecimal in the standard form, decimal here: group `10` is sixteen in the standard and ten here, and letters are rejected.
* `v6_edge_gap_violated` – The loopback and unspecified addresses in their usual form, and every form with `::` at either end, are rejected.
* `v6_short_violated` – Too few groups are accepted.
* `v6_long_violated` – Too many groups abort the program instead of being rejected, with or without overflow checks; without them a malformed text with `::` is even read as an address.

`LifeProps`

* `newborn_violated` – C90 does not hold: a process that was just made, or that has just done `exec`, has no thread announced; `kill` sends the signal to the thread 0.
* `exec_alarm_violated` – C90 does not hold: if the timer's time is up after `exec` and before a thread is announced, the timer's thread panics and no SIGALRM is sent; the next `setitimer` of the process, or its next `exec`, ends the whole program.
* `exec_alarm_lost_violated` – C90 does not hold: a SIGALRM that falls into an `exec` is lost, and if the timer was to ring once it never rings.
* `child_lost_violated` – C90 does not hold: the end of a process while the one that made it is in the middle of `exec`, or after that got another number by `exec`, is told to nobody, then or later: no run after it has a SIGCHLD for it, although the process that made it is there.
* `exec_threads_violated` – C90 does not hold: while one thread of a process is in the middle of `exec`, any call of another thread of the process ends the whole program, all processes with it.
* `exec_child_violated` – C90 does not hold: the end of a process after the `exec` of the one that made it and before that has announced a thread ends the whole program.
* `alarm_stranger_violated` – C90 does not hold: a timer is not stopped by the end of its process; if the number is given to another process, that gets the SIGALRM of the first.
* `timer_outlives_violated` – C90 does not hold: a timer that repeats outlives its process; whatever happens after, its thread goes on for ever.
* `set_kill_violated` – C90 does not hold: the call that notes a thread as the one to be signalled takes the thread that makes the call; made by a thread of another process, signals to the process then go to that.

`ListStatProps`

* `removed_lists_violated` – A directory that was removed while it is open still lists `.` and `..` (a Linux system lists nothing), with the number of a directory that no path leads to.

`LockFileProps`

* `lock_two_violated` – C105, violated: two threads take the lock at the same time, and both get it.

`LocksProps`

* `fchdir_hangs_violated` – The property fails: `fchdir` looks at the parent of the directory while it has the directory locked for writing, and if both fall into the same shard the thread waits for itself, for ever. If it is also the shard of the root directory, every call by an absolute path made by any cage from then on hangs too.
* `fchdir_root_violated` – The property fails, whatever the hash: `fchdir` to a descriptor of `/` never returns, and after it no call by an absolute path does.
* `fchdirs_hang_violated` – The property fails: two `fchdir`s wait for each other if the directory of each falls into the shard of the parent of the other's.
* `fork_chdir_violated` – The property fails, whatever the hash: `fork` walks to the working directory while it has the lock on its name, `chdir` asks for that lock while it has the directory. After that every call by an absolute path hangs, in every cage.
* `fork_twice_violated` – The property fails: `fork` reads the working directory a second time while it has it for reading; a `chdir` that came to wait in between keeps it out.
* `walk_hangs_violated` – The property fails if writers that wait keep readers out of a shard: a walk asks for the next inode while it has the last one, and if both are in one shard and somebody came to wait for it in between, both wait for ever; nobody gets past the root directory any more.

`LogConcProps`

* `stale_size_violated` – C79 fails for the size of a file that two threads extend at the same time: both calls have returned, the file is 20 bytes long; after a crash it is 10 bytes long, and what the second thread wrote is cut off.
* `lost_entry_violated` – C79 fails for the entries of a directory in which two threads make a file at the same time: both calls have returned, the directory has the names `a` and `b`; after a crash `b` is gone, and its file has no name.
* `back_again_violated` – C79 fails for a file that is removed while another thread changes its mode: it is back after a crash, without a name and with a link count of 1, so that nothing ever removes it.

`LogFileProps`

* `torn_count_violated` – Were the eight bytes of the count not stored at once, a crash between them could lose everything: 63 entries of four bytes, one more, and of the count only the last byte stored.
* `append_large_violated` – An entry longer than what is left plus one megabyte panics instead of being appended: a directory with a name of three megabytes (or with as many bytes of shorter names).

`MailboxProps`

* `claim_two_violated` – C112, violated: two threads claim the same job at the same time, each with its own name; both are told that they have it.

`MidCrashProps`

* `mid_crash_create_violated` – C78 fails for a call that makes something (mkdir, mknod, open with `O_CREAT`): the directory is logged before the new object. When the process dies between the two records, the name is there after the restart and leads nowhere, so that even `stat` of it aborts the whole system; and when something else is made later, under any name, the old name leads to that.
* `mid_crash_link_violated` – C78 fails for `link`: the directory is logged before the link count. When the process dies between the two records the file has two names and the count 1; removing one name then removes the file, and `stat` of the other name aborts the whole system.
* `mid_crash_unlink_violated` – C78 fails for `unlink`: the name is gone and the link count not changed, so that the file stays for ever after its last name has been removed.
* `mid_crash_rmdir_violated` – C78 fails for `rmdir`: the name is gone and the directory is still there, for ever, its number taken.

`MiscWitness`

* `mapping_aborts_violated` – C68, violated: a descriptor number outside the table ends the whole process.
* `mapping_address_violated` – C68, violated: the program cannot tell where its mapping is. Two different page addresses give the same answer, and an address as the host gives them to 64-bit programs gives a negative one.
* `mapping_reason_violated` – C68, violated: when the host refuses a mapping, whatever its reason, the program is told `EPERM`.
* `unmap_answer_violated` – C68, violated: `munmap` that succeeds does not answer 0 but the low bits of the address.
* `fsync_readonly_violated` – C69, violated: data written through another descriptor cannot be synchronised through one opened for reading only, nor can a directory be synchronised.
* `control_aborts_violated` – C69, violated: `fsync`, `ioctl` and `fstatfs` on a descriptor number outside the table end the whole process.
* `ioctl_copies_violated` – C69, violated: switching a socket to non-blocking through one descriptor does not switch its copy.
* `hostname_cut_violated` – C69, violated: with room for four bytes the name is stored without its end, and success is reported.
* `free_exceeds_total_violated` – C69, violated: `statfs` says that more blocks are free than the file system has.
* `longest_name_violated` – C69, violated: `statfs` says that names have at most 254 bytes, but a file with a name of 300 bytes can be made and is found.

`NameConcCheck`

* `stat_counts_violated` – C65, violated: the numbers of links that `stat` reports. While `link /d/f /d/h` is under way another thread asks for `/d/f`, and the new link is counted already (3); then it asks for `/d`, and the new entry is not counted yet (6). The calls are `Disciplined`, but no order of the three explains the two answers.

`NameConcWitness`

* `excl_create_violated` – C65 is violated: two threads create `/d/x` with `O_CREAT|O_EXCL` at the same time and both succeed, with different files; one of the files has no name but link count 1, and the link count of `/d` counts an entry that is not there.
* `stat_create_violated` – C65 is violated: `stat` of a name that another thread is just creating ends the program: the name is entered before the inode is stored.
* `double_unlink_violated` – C65 is violated: two threads remove the same name; the second one ends the program instead of answering ENOENT.
* `unlink_recreate_violated` – C65 is violated: a thread is about to remove `/d/f` while another one removes it and creates a new `/d/f`. The first then takes a link from the old file and the entry from the new one: all calls answer 0, the new file has link count 1 and no name, the old one has a name and link count 0, and after the last `close` of the old file its remaining name ends the program.
* `open_unlink_violated` – C65 is violated: opening a file that another thread removes ends the program instead of opening it or answering ENOENT.
* `create_trunc_violated` – C65 is violated: a file that one thread creates and another opens with `O_TRUNC` at the same time: the host file does not exist yet and the attempt to remove it ends the program.
* `mkdir_rmdir_violated` – C65 is violated: making a directory in a directory that another thread removes ends the program instead of answering ENOENT.
* `rmdir_nonempty_violated` – C65 is violated: the directory is found empty, then another thread makes a directory in it, then it is removed: both calls answer 0 and the new directory is lost, and its inode stays in the table.
* `link_unlink_violated` – C65 is violated: linking a file whose only name another thread removes ends the program.
* `double_rename_violated` – C65 is violated: two threads rename the same file to different names; both answer 0 and the file has both names, with a link count that is too small.
* `stale_log_violated` – C65 (and C26) is violated: two threads change the mode of one file; the log entry that the first prepared is written after that of the second, so the log ends with the mode that is no longer the mode of the file.
* `stale_dir_log_violated` – C65 (and C26) is violated: two threads make directories with different names in one directory. Both answer 0 and both are there, but the log entry of `/d` that the first prepared is written after that of the second, so the last record of `/d` in the log lacks the second directory: after a crash it is gone.

`NamesKeptWitness`

* `cwd_renamed_violated` – C96, violated: a process stands in a directory; another process gives the directory another name; now no relative path leads anywhere for the first process, not even `.`, though the directory and the file in it exist.
* `cwd_replaced_violated` – C96, violated: if the old name is then given to another directory, relative paths lead into that one: the first process makes its file in a directory that it never entered.
* `cwd_removed_violated` – C96, violated: the same with a directory that is removed and made again.

`NoPanic`

* `link_root_violated` – C58 fails as stated: an ordinary call with a bad argument aborts everything. Here `link` to `/`.
* `bad_descriptor_violated` – C58 fails as stated: `fstat` of descriptor 2000 aborts in every state.

`NsAnswersWitness`

* `rename_missing_violated` – C62. `rename` of a name that does not exist is EEXIST instead of ENOENT.
* `not_a_directory_violated` – C62. A path through a regular file is ENOENT instead of ENOTDIR: `/d/f` is a file.
* `link_to_root_violated` – C62. `link` to the root aborts instead of failing with EEXIST, whatever the old path is.
* `open_directory_violated` – C62. A directory can be opened for writing (POSIX: EISDIR).
* `rename_across_violated` – C62. `rename` across directories is EOPNOTSUPP.

`NsWitness`

* `removed_dir_dotdot_violated` – Why `directories_well_formed` speaks of directories with a path: a directory removed while open keeps its `..` entry, and after its parent is removed too that entry names nothing. `fchdir` on it then aborts (C46).
* `rmdir_open_violated` – C13. A directory removed while a descriptor is open on it is not reclaimed when the descriptor is closed: it has no name and no descriptor, and still exists.
* `failed_unlink_violated` – C14, C25. `unlink` in a directory without write permission fails with EPERM, but the link count of the file has been lowered: `stat` now reports 1 for a file that has two names. A second failing call and a close reclaim the file, and the remaining names lead nowhere: the next lookup aborts.
* `rename_overwrite_violated` – C13, C14, C24. `rename` onto an existing name: the file that had the target name keeps its link count of 1 and exists although it has no name and no descriptor; the directory's link count is one too high.
* `open_async_violated` – C19. With O_ASYNC (020000) in the flags a new file is not created: EINVAL (the code tests the flags for the file type bits of a character device).
* `rmdir_own_mode_violated` – C15. An empty directory without write permission of its own is not removed, though its parent is writable.
* `rmdir_type_bits_violated` – C15, C58. `mkdir` accepts a mode with file type bits of another kind; `rmdir` of that directory aborts.
* `rename_self_violated` – C24. Renaming a file to its own name removes the name.
* `rename_errors_violated` – C24. Renaming something that does not exist: EEXIST instead of ENOENT. To another directory: EOPNOTSUPP.
* `fchdir_root_violated` – C46. `fchdir` on a descriptor of the root directory does not return: the thread asks again for the lock it holds.

`OpenTruncProps`

* `trunc_read_aborts_violated` – C74, violated: opening a file with O_TRUNC in one process makes the next `read` of another process that has read some of it abort the whole program; Linux answers 0.
* `trunc_directory_violated` – C74, violated: a directory opened for writing, with O_TRUNC or without, is opened; Linux answers EISDIR.

`PipeConcProps`

* `writev_mixed_violated` – C83 violated: the bytes of a vectored write, three in all, do not stay together when another thread writes.
* `writev_hole_violated` – C83 violated: a non-blocking vectored write answers 65537, but the 65537th byte of its data is not in the pipe: the last byte of the first buffer is left out and the second buffer follows.
* `nonblocking_waits_violated` – C83 violated: while a blocking write waits for room, a non-blocking write to the same pipe does not answer EAGAIN, and neither select nor poll for writing answers, even with timeout zero: as long as nobody reads and no reader closes, however many steps the threads take, no write of at least one byte ends and the check of the write end waits for the lock.
* `select_read_waits_violated` – C83 violated: a check of the read end (select, poll) waits while another thread waits for data in a blocking read.

`PipeProps`

* `read_eof_violated` – C03 violated under concurrency: a read returns 0 (end of file) although the pipe holds a byte that was written before the writer closed.
* `write_count_violated` – C03 violated under concurrency: a write that transferred 4096 bytes reports EPIPE instead of the count.
* `select_write_violated` – C04 violated (completeness): with exactly 4096 bytes free a pipe is not reported writable although a write succeeds.
* `select_write_blocking_violated` – C04 violated (soundness for blocking writes): a pipe is reported writable, yet a blocking write of more than the free space blocks (POSIX allows this; the property as stated does not).

`PortsConcWitness`

* `conc_inuse_violated` – **C80 fails.** A search answers `EADDRINUSE` although at every moment while it ran some port of the range was free for its address: after it has tried the highest port, which is held, another thread gives that port back and takes the lowest one, the only free one until then, before the search comes to it.

`PortsProps`

* `unrecorded_violated` – **C31 fails, C32 fails.** While a port is held for one address, a reservation for another succeeds but is not recorded: a second exclusive owner gets it as well, and releasing it aborts the program.
* `join_violated` – **C31 fails.** A caller that does not share gets a port that another shares.
* `release_all_violated` – **C32 fails.** A sharer of one address joins a shared reservation for all; when the latter is released, the entry of a different address is left, so that the first can no longer release (the program aborts) and the port stays refused for all addresses.
* `ephemeral_violated` – **C33 fails.** An ephemeral port that is already held for the same address.
* `failed_bind_violated` – **C31 and C32 fail through `bind`.** A socket whose `bind` was refused releases, when it is closed, the port of the socket that owns it; a third socket then gets the port while the first is still bound.

`PowerProps`

* `fsync_lost_violated` – C72 violated: `fsync` reports success, the power fails at once, and the file does not exist when the system comes up again: the three bytes are on the disk, the record that names them is not, because the log is never sent to the disk.
* `fsync_shorter_violated` – C72 violated: with the file already named on the disk but the record of its size not, the file comes up shorter than `fsync` left it.

`RecoveryWitness`

* `crash_size_violated` – C26 fails for the size of a file emptied by an open: the new size is not logged. The old size comes back, but not the content.
* `crash_reclaim_violated` – C26 fails for directories without a name: one that was open when it was removed is still there after the crash, for ever.
* `second_crash_violated` – C28 fails right after recovery: the log has been removed and the metadata file not written, so a second crash takes back everything that happened before the first. C16 fails with it: the number of the lost directory is given out again.
* `recovery_crash_violated` – C28 fails during recovery, between the removal of the log and the end of recovery.
* `shutdown_crash_violated` – C28 fails during shutdown: between the removal of the metadata file and its rewriting a crash loses the whole file system, and a crash while it is being written leaves a system that cannot start.
* `shutdown_deletes_violated` – C53 fails for whatever was renamed: rename records the new path as that of a unix socket, and the shutdown deletes it.
* `shutdown_aborts_violated` – C53 fails: a shutdown can abort.

`RendezvousProps`

* `overwritten_violated` – **C81 fails.** A second connect to the same path takes the place of the first: the first waits for ever, whatever is accepted afterwards, and so does whoever wants to remove the name.
* `removed_violated` – **C81 fails.** A connect that comes between the last look of an accept and its removal of the entry loses its own entry: it waits for ever, although the connect before it was accepted and had returned.
* `twice_accepted_violated` – **C81 fails.** Two accepts on one path, for example of two processes that share the listening socket, can get the same connection: both return the other end of one connect.

`ReplaceWitness`

* `replace_shutdown_violated` – C103 fails at a clean shutdown: `rename` records the new name as that of a unix socket, and the shutdown deletes it. After the next start the file is there under neither name: neither the old content nor the new.
* `replace_shutdown_aborts_violated` – C103 fails at a shutdown while the editor still has the file open: the file is deleted first, and when the descriptor is closed there is nothing to close; the shutdown aborts before it has written the metadata.
* `replace_leak_violated` – C103. The old file stays for ever: when the last descriptor is closed it has no name, but its link count is 1 and its bytes are on the disk; the directory's link count is one too high.

`RlimitProps`

* `setrlimit_violated` – C106, violated: setting the limit on descriptors is reported as done whatever the value, yet nothing changes: the limit reported afterwards is the old one, and a cage that limited itself to no descriptors still gets one. A value above the hard limit is accepted as well.
* `nofile_max_violated` – C106, violated: the hard limit reported, 4096, cannot be reached: no history opens a descriptor numbered 1024 or above.
* `rlimit_numbers_violated` – C106, violated: the numbers Linux gives these resources, 7 for descriptors and 3 for the stack, are refused, and Linux's number 1 (the size of files) is taken for the number of descriptors; the stack limit cannot be set.

`SelectWitness`

* `select_last_violated` – C42 violated: descriptor 1023 exists, but select cannot be asked about it.
* `select_dup_violated` – C42 violated: two descriptors of one host socket that is readable; only the first is reported.
* `select_host_failure_violated` – C42 violated: a closed descriptor and a host failure: EPERM instead of EBADF.
* `select_write_hangs_violated` – C42 violated: asking whether a socket can be written to, just when its connection is made, hangs.
* `select_unbound_violated` – C42 violated: a listening unix socket without address aborts the program.
* `select_after_peek_violated` – C42 violated: after a peek of everything there is, the bytes are there to be received, but select does not say so.
* `select_half_violated` – C42 violated: a socket shut down for writing can still receive, but select does not say so.
* `poll_pri_violated` – C43 violated: urgent data is reported though there is none, whenever it is asked for together with something possible.
* `poll_closed_silent_violated` – C43 violated: a closed descriptor is not reported if the entry asks for nothing.
* `poll_large_violated` – C43 violated: the last descriptor makes the call fail, a larger one aborts the program.
* `wait_reused_violated` – C44 violated: the registration outlives the descriptor, if its number is in use again when the call looks: what is reported was never registered (here the file now at 3 after the pipe registered there was closed).
* `wait_self_violated` – C44 violated: with its own number among the registrations (the epoll descriptor was moved onto a registered number), it hangs.

`SemShmWitness`

* `middle_violated` – **C94 violated.** A process-shared semaphore that is not at the first byte of its segment: in a debug build `sem_init` aborts the program, because the offset in the segment is computed the wrong way round (src/safeposix/syscalls/fs_calls.rs 6438).
* `middle_release_violated` – **C94 violated.** The same in a release build: `sem_init` succeeds, but the process next to it, with the segment at the same address, has no semaphore there; instead its own, private semaphore 32 bytes below has become the shared one.
* `address_violated` – **C94 violated.** Two processes have a segment at different addresses. One initialises a semaphore at the first byte: the other does not find it there, but at the address of the first one, which is no memory of its own.
* `destroyed_violated` – **C94 violated.** A semaphore in a segment is destroyed in the proper way; the next process that attaches the segment brings the program down (src/safeposix/syscalls/fs_calls.rs 5818: `unwrap` of the entry that was removed).
* `detached_violated` – **C94 violated.** The last process detaches a segment and it, or another one, attaches it again: the memory is as it was, but the semaphore in it is gone, and the second process to attach it brings the program down.
* `private_violated` – **C94 violated.** A semaphore that is not process-shared, in private memory: after a `fork` the child's wait takes the parent's unit (src/safeposix/syscalls/sys_calls.rs 341: the object is shared, not copied).
* `destroy_violated` – **C94 violated.** A process has a segment at two addresses, and another process has it at one of them; after a semaphore was made there, the first process attaches nothing and detaches nothing, and the second one destroys the semaphore: at its other address the first process still has it.

`ShmConcWitness`

* `attached_violated` – `shmctl(IPC_RMID)` looks whether the segment is attached, gives it back and then removes it. A `shmat` in between succeeds, and what it attached is removed all the same; the `shmdt` of that address then panics. With one call after the other neither happens.
* `key_lost_violated` – The second of two `shmctl(IPC_RMID)` of one segment removes the key of the segment that was made after the first: it exists and can no longer be found by its key, so that a further `shmget` makes a second segment with that key.
* `half_made_violated` – `shmget` puts the key into the table before the segment: a second `shmget` of the key is given the identifier of a segment that is not there yet, and its `shmat` fails although nobody has removed anything.
* `deadlock_violated` – `shmat` takes the segment and then the list of its cage, `shmdt` the list and then the segment: two threads of one cage, one attaching a segment and one detaching it, can block each other for ever, whatever the other threads do.

`ShmProps`

* `mmap_violated` – **C34 fails.** An attachment the host refuses (an address that is not a multiple of the page size) is counted all the same.
* `fork_violated` – **C34 fails.** A fork onto the number of a cage that exists overwrites that cage's count: the segment is removed under a cage that still has it attached.

`SignalProps`

* `never_raised_violated` – C36 fails for pending signals: blocking and unblocking SIGUSR1 sends it to the thread although no call and no runtime event ever raised it.
* `setmask_drops_pending_violated` – C36 fails for pending signals: a SIGUSR1 that arrived while blocked is not sent again when SIG_SETMASK unblocks it (the only send is the original one, which was refused).
* `signal64_violated` – C36 fails for signal 64: unblocking never sends it.
* `unannounced_thread_violated` – C36 is violated for threads the runtime has not announced: before `rustposix_thread_init` no thread has a mask, and a call that needs it aborts the program.

`SockAddrProps`

* `read_inet6_violated` – An IPv6 address as every Linux program writes it is refused, whatever its length.
* `read_local_violated` – A Unix address is read 110 bytes long whatever length the caller declared: bytes outside the caller's structure become part of the path. Here the declared 16 bytes hold the path `sssssssssssss`+`s` and the byte behind them is taken as a further character.
* `round_trip_violated` – An IPv6 address handed out by accept or recvfrom cannot be passed back.
* `unix_path_panic_violated` – Asking for the path aborts the program exactly when the bytes before the first zero byte are not UTF-8. These bytes come from the caller of bind or connect unchecked.

`SockNewProps`

* `setfl_cloexec_violated` – A socket asked to be closed on exec is not any more after F_SETFL has set O_NONBLOCK.
* `socketpair_full_violated` – **Violated: with a full table `socketpair` should be ENFILE.** `_socket_inserter` answers -23, which `socketpair_syscall` (`net_calls.rs` 5158 and 5167) does not look at: the call returns 0 and stores -23 as both descriptor numbers.
* `socketpair_one_violated` – **Violated: a `socketpair` that cannot be met should leave the table as it is.** With one number free the call returns 0, leaves a descriptor open on a socket whose other end is already out of reach, and stores -23 as the number of the other.
* `sotype_violated` – **Violated: SO_TYPE should be the kind of the socket.** The type is stored with the flags it came with (`net_calls.rs` 228 and 1240), and `getsockopt` hands out the whole number: a socket made with SOCK_STREAM and SOCK_NONBLOCK reports type 2049.

`SockOptProps`

* `cloexec_violated` – **C48 fails.** A new socket made with `SOCK_CLOEXEC` reports `SO_SNDLOWAT` as on, because the descriptor's flags are stored as its options; one made without reports it as off.
* `bad_option_violated` – An option number of 32 or more, or below 0, aborts the program (shift overflow), for `getsockopt` at any level.

`StatBufProps`

* `times_violated` – stat does not store the times of the file (access, modification, change), although they are kept: the caller reads what was in the buffer before. No call reports them (`fs_calls.rs` 1208-1259; `types.rs` 46: "currently we don't populate … the time bits"). For a device the block size and block count are not stored either.
* `stdin_is_dev_violated` – fstat of standard input gives the device and number of the directory `/dev`: a program that compares the pairs takes them for the same file (`fs_constants.rs` 17 calls 2 a dummy value; `filesystem.rs` gives it to `/dev`).
* `pipes_same_violated` – All pipes have the same device and number, also that of every epoll object; and by their mode they are sockets (`S_ISSOCK`), not pipes.

`TimeArgsProps`

* `select_negative_violated` – A negative timeout of `select` is not refused (EINVAL): `duration_fromtimeval` (src/interface/types.rs 707-718) checks nothing, and the cast to unsigned makes it a wait of more than 2^63 seconds.
* `select_overflow_violated` – A large number of microseconds in the timeout of `select` stops the whole program in a debug build and becomes less than a millisecond in a release build: it is multiplied by 1000 in 32 bits (src/interface/types.rs 713). Here 4.294968 seconds.
* `timespec_fraction_violated` – No time with a fraction of a second is ever taken for what it means by `cond_timedwait` and `sem_timedwait`: the nanoseconds are multiplied by 10^9 (src/interface/types.rs 750-753), in 32 bits. This holds in every build and for every fraction.
* `timespec_panic_violated` – Five nanoseconds or more stop the whole program in a debug build; one nanosecond is taken for a whole second in every build.
* `sem_deadline_violated` – `sem_timedwait` takes the time it is given as the length of the wait, `cond_timedwait` takes it as the moment to stop: the first adds it to the time of the call (src/interface/misc.rs 685-692), although both document the same C interface, where it is a moment (src/safeposix/syscalls/fs_calls.rs 6765). With a moment long past, a call that begins at that moment or later still waits as long again.

`TimerProps`

* `unit_violated` – C52 fails: a timer set to half a second (500000 µs) fires after half a millisecond.
* `report_violated` – C52 fails: after an expired one-shot timer of 5 s, the next call reports 5 s left.
* `report_fraction_violated` – C52 fails: whatever fraction of a second a timer was armed with, value or interval, the next call reports none: the microseconds were kept as nanoseconds, and are reported as milliseconds.

`TouchWitness`

* `address_read_violated` – `bind` with a Unix address of 16 bytes, the least length that is accepted, reads 110 bytes.
* `family_read_violated` – `connect` with an address length of zero reads the two bytes of the family field before it refuses.
* `negative_count_violated` – `writev` with a count of -1 on a pipe, for which the manual asks `EINVAL`, takes the array to have 2^64 - 1 elements and reads buffers from memory behind it.
* `detach_alias_violated` – `shmdt` finds an attachment by the low 32 bits of the address: given an address 4 GB above an attached one it maps 8192 bytes there anew, where the caller has nothing attached.
* `null_buffer_violated` – A `writev` buffer at the null address is used as it is.
* `quick_null_violated` – `quick_read` with a null buffer writes through it when the object has bytes to give.

`UnixRefsWitness`

* `dup_before_connect_violated` – C77 is violated: a descriptor made by dup before the socket was connected is not counted. Closing it makes the other side see end of stream, although the socket is still open, and still sends.
* `shut_both_silent_violated` – C77 is violated: after SHUT_RDWR no descriptor of the client is left, but the server never sees end of stream and its sends succeed.
* `shut_write_silent_violated` – C77 is violated: after SHUT_WR the client cannot send any more, but the server sees no end of stream.
* `listener_closed_violated` – C77 is violated: if the server closes its listening socket without accepting, the client is never told: nothing can receive what it sends, but its sends succeed and its receives wait.
* `dup_close_panic_violated` – C77 is violated: dup makes no reference to the inode of the socket. Once both descriptors of the client are closed, the server's close aborts the program.

`UnixWitness`

* `peek_reconnect_violated` – C40 is violated: bytes peeked on one connection are delivered on the next one the socket makes. The client peeks two bytes, shuts the socket down in both directions and connects again; on the new connection, on which nothing has been sent, it receives them.
* `first_connect_lost_violated` – C40 is violated: of two clients that connect before the server accepts, the first is lost. Its connect and its send succeed, but the server only ever gets the second.
* `accept_unlinked_violated` – C40 is violated: if the name of the client is unlinked before the server accepts, the accepted socket aborts the program on its first send.
* `accept_full_violated` – C49 is violated: with a full descriptor table accept "succeeds" on any socket, listening or not, and gives back its argument.
* `shut_again_violated` – C49 is violated: after SHUT_RD and SHUT_WR, one more SHUT_RD makes sending possible again.
* `shut_both_differs_violated` – C49 is violated: SHUT_RDWR closes the descriptor, which SHUT_RD and SHUT_WR together do not.
* `shut_unconnected_violated` – C49 is violated: SHUT_RD on a socket that was never connected makes it ready to send, and the send aborts the program.
* `failed_bind_violated` – C54 is violated: a bind that fails because the name exists leaves the socket with that address. It reports it, it cannot be bound to a free name any more, and a connect with it aborts the program.

Noticed while reading, without a theorem of their own:

* sockets are not logged and `fsck` drops socket inodes but not the directory entries that name them: after a crash a lookup
  of such a name panics;
* `cleartmp` reads positions that shift while it deletes, so a `/tmp` larger than one buffer is not cleared completely;
* the reference that `fork` takes on the working directory is never given back;
* `SO_TYPE` reports the type word with the flags given to `socket`;
* `sendto` with a unix address and unix datagram sockets panic;
* `SockaddrUnix` is read 110 bytes long whatever the caller's length;
* the standard library's integer parser, used for addresses, accepts a leading `+`.
