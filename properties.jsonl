{"id": "C01", "title": "Pipes deliver bytes in order, without loss, duplication or invention", "statement": "Whatever sequence of read and write calls is made on a pipe, the concatenation of all bytes returned by reads so far, followed by the bytes still buffered, equals the concatenation of the byte ranges that writes put into the pipe, in order.", "quantifier": "every history of reads, writes (blocking or not, plain or vectored) and endpoint duplications/closes, every payload, every interleaving of the iterations of concurrent writers and readers", "why_tests_cant": "A test fixes one payload and one schedule; ordering across partial writes and wrap-around depends on every interleaving and length.", "anchors": ["src/interface/pipe.rs:EmulatedPipe::write_to_pipe", "src/interface/pipe.rs:EmulatedPipe::write_vectored_to_pipe", "src/interface/pipe.rs:EmulatedPipe::read_from_pipe", "src/safeposix/syscalls/fs_calls.rs:read_syscall", "src/safeposix/syscalls/fs_calls.rs:write_syscall"]}
{"id": "C02", "title": "A pipe never buffers more than its capacity", "statement": "At every moment the number of buffered bytes of a pipe is at most 65536 (212992 for a unix socket pair direction), and the byte count returned by a write is exactly the number of bytes it added, never more than requested.", "quantifier": "every reachable pipe state and every write size", "why_tests_cant": "Bounds must hold for every fill level and every chunk split, not for sampled sizes.", "anchors": ["src/interface/pipe.rs:EmulatedPipe::write_to_pipe", "src/interface/pipe.rs:new_pipe", "src/safeposix/syscalls/fs_constants.rs:PIPE_CAPACITY"]}
{"id": "C03", "title": "End of file and broken pipe are reported exactly when the other side is gone", "statement": "A read of a positive count returns 0 only if the pipe is empty and no write end is open; a non-blocking read of an empty pipe with an open write end returns EAGAIN. A write of a positive count returns EPIPE if and only if no read end is open, and a write that transferred some bytes reports that count.", "quantifier": "every pipe state, count and blocking mode", "why_tests_cant": "Depends on reference counts produced by arbitrary dup/fork/close histories and on the exact fill level.", "anchors": ["src/interface/pipe.rs:EmulatedPipe::read_from_pipe", "src/interface/pipe.rs:EmulatedPipe::write_to_pipe", "src/safeposix/syscalls/fs_calls.rs:_close_helper_inner"]}
{"id": "C04", "title": "select/poll readiness of a pipe agrees with what read and write then do", "statement": "If a pipe end is reported readable (writable), an immediately following read (write of a positive count) completes without blocking and without EAGAIN; conversely, if it would complete without EAGAIN it is reported ready.", "quantifier": "every pipe state", "why_tests_cant": "Off-by-one between two thresholds shows only at one exact fill level.", "anchors": ["src/interface/pipe.rs:EmulatedPipe::check_select_read", "src/interface/pipe.rs:EmulatedPipe::check_select_write", "src/safeposix/syscalls/net_calls.rs:select_readfds", "src/safeposix/syscalls/net_calls.rs:select_writefds"]}
{"id": "C05", "title": "Pipe end counts equal the number of open descriptors", "statement": "In every reachable state the number of read (write) references of a pipe equals the number of open descriptors, over all cages, that are the read (write) end of that pipe; so EOF/EPIPE appear exactly when the last descriptor of the other end is closed, by close, dup2, exec or exit.", "quantifier": "every history of pipe, dup, dup2, fcntl(F_DUPFD), fork, exec, exit and close over any number of cages", "why_tests_cant": "A missed increment or double decrement needs a particular combination of calls in several cages.", "anchors": ["src/interface/pipe.rs:EmulatedPipe::incr_ref", "src/interface/pipe.rs:EmulatedPipe::decr_ref", "src/safeposix/syscalls/fs_calls.rs:_dup2_helper", "src/safeposix/syscalls/fs_calls.rs:_close_helper_inner", "src/safeposix/syscalls/sys_calls.rs:fork_syscall", "src/safeposix/syscalls/sys_calls.rs:exec_syscall", "src/safeposix/syscalls/sys_calls.rs:exit_syscall"]}
{"id": "C06", "title": "flock gives shared/exclusive mutual exclusion", "statement": "At no time does one holder have an exclusive lock while any other holder has a shared or exclusive lock on the same open file; LOCK_NB returns EAGAIN exactly when the lock is held incompatibly, and blocked requests are granted only when compatible. Two different opens of one file exclude each other.", "quantifier": "every history and interleaving of flock calls by any number of holders", "why_tests_cant": "Mutual exclusion quantifies over all schedules.", "anchors": ["src/interface/misc.rs:AdvisoryLock", "src/safeposix/syscalls/fs_calls.rs:flock_syscall"]}
{"id": "C07", "title": "Semaphore value is initial value plus posts minus waits", "statement": "After any history the value of a semaphore equals its initial value plus successful posts minus successful waits; it never goes below zero or above SEM_VALUE_MAX, a trywait fails exactly at zero, a post fails exactly at the maximum.", "quantifier": "every history of wait, trywait, timedwait and post", "why_tests_cant": "Counting invariants over unbounded histories.", "anchors": ["src/interface/misc.rs:RustSemaphore", "src/safeposix/syscalls/fs_calls.rs:sem_post_syscall", "src/safeposix/syscalls/fs_calls.rs:sem_trywait_syscall", "src/safeposix/syscalls/fs_calls.rs:sem_getvalue_syscall"]}
{"id": "C08", "title": "New descriptors are the lowest free number", "statement": "Every call that creates a descriptor (open, dup, F_DUPFD, pipe, socket, accept, epoll_create) returns the smallest number, not below the requested start, that was not open, always below 1024; it fails with ENFILE exactly when there is none, and it disturbs no other descriptor.", "quantifier": "every descriptor table and start value", "why_tests_cant": "Ranges over all 2^1024 occupancy patterns.", "anchors": ["src/safeposix/cage.rs:Cage::get_next_fd", "src/safeposix/syscalls/fs_calls.rs:open_syscall", "src/safeposix/syscalls/fs_calls.rs:_dup2_helper"]}
{"id": "C09", "title": "dup and dup2 make an independent name for the same open object", "statement": "After dup/dup2/F_DUPFD both descriptors designate the same file, pipe end or socket, closing either leaves the other usable, they share one file offset, dup2 closes what the target number designated before, and dup2 on a closed descriptor is EBADF.", "quantifier": "every descriptor table, every pair of numbers", "why_tests_cant": "Requires reasoning about aliasing for every subsequent history.", "anchors": ["src/safeposix/syscalls/fs_calls.rs:dup_syscall", "src/safeposix/syscalls/fs_calls.rs:dup2_syscall", "src/safeposix/syscalls/fs_calls.rs:_dup2_helper"]}
{"id": "C10", "title": "close frees exactly one descriptor", "statement": "close(fd) on an open descriptor makes fd invalid and leaves every other descriptor of every cage as it was; close of a number that is not open is EBADF and changes nothing.", "quantifier": "every state and fd", "why_tests_cant": "Frame conditions quantify over all other descriptors and cages.", "anchors": ["src/safeposix/syscalls/fs_calls.rs:close_syscall", "src/safeposix/syscalls/fs_calls.rs:_close_helper", "src/safeposix/syscalls/fs_calls.rs:_close_helper_inner"]}
{"id": "C11", "title": "exec closes exactly the close-on-exec descriptors", "statement": "After exec, a descriptor is open in the new image if and only if it was open before and not marked close-on-exec, and then it designates the same object; working directory and process identity carry over.", "quantifier": "every descriptor table", "why_tests_cant": "Must hold for each of 1024 slots in any combination.", "anchors": ["src/safeposix/syscalls/sys_calls.rs:exec_syscall", "src/safeposix/syscalls/fs_calls.rs:fcntl_syscall"]}
{"id": "C12", "title": "fork gives the child an equal but separate descriptor table", "statement": "Right after fork the child has exactly the parent's descriptors and working directory; later changes of either table do not affect the other.", "quantifier": "every parent state and every later history", "why_tests_cant": "Isolation is a statement about every later history.", "anchors": ["src/safeposix/syscalls/sys_calls.rs:fork_syscall"]}
{"id": "C13", "title": "Open files stay alive; unreferenced files are reclaimed", "statement": "The number of open references recorded for a file equals the number of descriptors, over all cages, that designate it; every open descriptor's file exists, so no call on an open descriptor can fail for lack of the file; a file disappears exactly when it has neither names nor open descriptors.", "quantifier": "every history of open, creat, close, dup, dup2, fork, exec, exit, unlink, link, rename, rmdir", "why_tests_cant": "Reference-count errors need specific multi-cage histories; the invariant covers all of them.", "anchors": ["src/safeposix/syscalls/fs_calls.rs:open_syscall", "src/safeposix/syscalls/fs_calls.rs:unlink_syscall", "src/safeposix/syscalls/fs_calls.rs:_close_helper_inner", "src/safeposix/syscalls/sys_calls.rs:fork_syscall", "src/safeposix/filesystem.rs:Inode"]}
{"id": "C14", "title": "st_nlink equals the number of names", "statement": "In every reachable state the link count of a regular file or device equals the number of directory entries that name it; for directories it is the number of entries plus one.", "quantifier": "every history of creat, mknod, link, unlink, rename, mkdir, rmdir, bind", "why_tests_cant": "Counting invariant over the whole directory graph and all histories.", "anchors": ["src/safeposix/syscalls/fs_calls.rs:link_syscall", "src/safeposix/syscalls/fs_calls.rs:unlink_syscall", "src/safeposix/syscalls/fs_calls.rs:rename_syscall", "src/safeposix/syscalls/fs_calls.rs:mkdir_syscall", "src/safeposix/syscalls/fs_calls.rs:rmdir_syscall", "src/safeposix/syscalls/fs_calls.rs:stat_syscall"]}
{"id": "C15", "title": "rmdir removes a directory only if it is empty", "statement": "rmdir succeeds only for an existing, empty, non-root directory, and it succeeds for every such directory the caller may remove; no file becomes unreachable through rmdir.", "quantifier": "every reachable file system and path", "why_tests_cant": "Emptiness is judged from a counter whose agreement with the real entries is a global invariant.", "anchors": ["src/safeposix/syscalls/fs_calls.rs:rmdir_syscall", "src/safeposix/syscalls/fs_calls.rs:remove_from_parent_dir"]}
{"id": "C16", "title": "Inode numbers are never reused", "statement": "Every created file, directory, device or socket gets an inode number that no earlier object of the file system ever had, also after clean restart or crash recovery.", "quantifier": "every history including restarts and crashes", "why_tests_cant": "Freshness over unbounded history and crash points.", "anchors": ["src/safeposix/filesystem.rs:load_fs", "src/safeposix/syscalls/fs_calls.rs:open_syscall", "src/safeposix/syscalls/fs_calls.rs:mkdir_syscall", "src/safeposix/syscalls/fs_calls.rs:mknod_syscall"]}
{"id": "C17", "title": "Path normalisation is sound", "statement": "Resolving a path string yields an absolute path without '.', '..' or empty components; relative paths are taken from the working directory; normalising twice changes nothing; '..' at the root stays at the root.", "quantifier": "every path string and working directory", "why_tests_cant": "Unbounded strings and nesting.", "anchors": ["src/safeposix/filesystem.rs:normpath", "src/safeposix/filesystem.rs:convpath"]}
{"id": "C18", "title": "Path lookup finds exactly what the directories say", "statement": "A path resolves to the inode obtained by following its components through directory entries from the root; lookup fails if a component is missing or a non-final component is not a directory; the parent reported is the directory holding the last name. Lookup never panics.", "quantifier": "every reachable file system and path", "why_tests_cant": "Ranges over all trees and paths.", "anchors": ["src/safeposix/filesystem.rs:metawalkandparent", "src/safeposix/filesystem.rs:metawalk"]}
{"id": "C19", "title": "O_CREAT and O_EXCL semantics of open", "statement": "open with O_CREAT|O_EXCL succeeds only if the name did not exist and then creates an empty regular file with a single link; with O_CREAT alone an existing file is opened unchanged; without O_CREAT a missing name is ENOENT and nothing is created.", "quantifier": "every file system state, path, flags and mode", "why_tests_cant": "Decision table over all states; atomicity of check and create.", "anchors": ["src/safeposix/syscalls/fs_calls.rs:open_syscall", "src/safeposix/syscalls/fs_calls.rs:creat_syscall"]}
{"id": "C20", "title": "Read returns what was last written", "statement": "A file's content seen through read/pread/readv is, at each offset, the byte most recently written there by write/pwrite/writev through any descriptor, zero if never written, and end of file at st_size; writes touch only the written range.", "quantifier": "every history of reads, writes, seeks and truncates through any descriptors of any cage", "why_tests_cant": "Byte-exact content after arbitrary overlapping writes is a refinement over all histories.", "anchors": ["src/safeposix/syscalls/fs_calls.rs:read_syscall", "src/safeposix/syscalls/fs_calls.rs:pread_syscall", "src/safeposix/syscalls/fs_calls.rs:write_syscall", "src/safeposix/syscalls/fs_calls.rs:pwrite_syscall", "src/safeposix/syscalls/fs_calls.rs:writev_syscall", "src/interface/file.rs:EmulatedFile"]}
{"id": "C21", "title": "lseek computes offsets correctly", "statement": "lseek returns base plus offset (base 0, current position, or file size) and sets the position to it; if that is negative it fails with EINVAL and the position is unchanged; positions are never negative.", "quantifier": "every position, size, offset and whence", "why_tests_cant": "Integer edge cases over the whole range.", "anchors": ["src/safeposix/syscalls/fs_calls.rs:lseek_syscall"]}
{"id": "C22", "title": "truncate keeps the prefix and zero-fills", "statement": "After truncate/ftruncate to n the file size is n, bytes below min(old size, n) are unchanged and bytes from old size to n are zero; a negative length is EINVAL and changes nothing.", "quantifier": "every content and length", "why_tests_cant": "All sizes and contents.", "anchors": ["src/safeposix/syscalls/fs_calls.rs:_truncate_helper", "src/interface/file.rs:EmulatedFile::zerofill_at", "src/interface/file.rs:EmulatedFile::shrink"]}
{"id": "C23", "title": "st_size agrees with the stored data", "statement": "In every reachable state the size reported by stat for a regular file is exactly the length of its stored content, so that I/O at any valid descriptor position never aborts the process.", "quantifier": "every history of file operations", "why_tests_cant": "Two separately maintained lengths (metadata and host file) must agree after every history.", "anchors": ["src/safeposix/syscalls/fs_calls.rs:open_syscall", "src/safeposix/syscalls/fs_calls.rs:write_syscall", "src/safeposix/syscalls/fs_calls.rs:_truncate_helper", "src/interface/file.rs:EmulatedFile"]}
{"id": "C24", "title": "rename moves one name and loses nothing", "statement": "After a successful rename the new name designates the object the old name designated, the old name is gone (unless both are the same name, when nothing changes), other names are untouched, and an overwritten target loses one link.", "quantifier": "every file system, pair of paths", "why_tests_cant": "Aliasing cases (same name, existing target, hard links) over all trees.", "anchors": ["src/safeposix/syscalls/fs_calls.rs:rename_syscall"]}
{"id": "C25", "title": "Failed namespace calls change nothing", "statement": "If open, mkdir, mknod, link, unlink, rename, rmdir or chmod returns an error, every path resolves as before and every stat result is as before.", "quantifier": "every state and argument for each call", "why_tests_cant": "Every error path of every call must be checked in every state.", "anchors": ["src/safeposix/syscalls/fs_calls.rs:link_syscall", "src/safeposix/syscalls/fs_calls.rs:unlink_syscall", "src/safeposix/syscalls/fs_calls.rs:rmdir_syscall", "src/safeposix/syscalls/fs_calls.rs:mkdir_syscall", "src/safeposix/syscalls/fs_calls.rs:open_syscall"]}
{"id": "C26", "title": "Crash recovery restores the metadata", "statement": "If the process dies after any completed system call, then after restart every path resolves to the same object with the same size, mode and link count as just before the crash (objects that had no name left are reclaimed).", "quantifier": "every history and every crash point between calls", "why_tests_cant": "Crash points and histories are unbounded; equality of recovered and lost state is a refinement.", "anchors": ["src/safeposix/filesystem.rs:load_fs", "src/safeposix/filesystem.rs:log_metadata", "src/safeposix/filesystem.rs:fsck", "src/safeposix/filesystem.rs:persist_metadata"]}
{"id": "C27", "title": "A torn log append is harmless", "statement": "If the process dies in the middle of appending a log entry, recovery sees exactly the entries completely appended before.", "quantifier": "every log content, entry and crash point inside the append", "why_tests_cant": "Byte-level crash points.", "anchors": ["src/interface/file.rs:EmulatedFileMap::write_to_map", "src/safeposix/filesystem.rs:load_fs"]}
{"id": "C28", "title": "Recovery is idempotent and survives a second crash", "statement": "Replaying the log twice gives the same metadata as once, and a crash during or right after recovery, before anything else happens, loses nothing that the first recovery had restored.", "quantifier": "every snapshot, log and crash point during recovery or shutdown", "why_tests_cant": "Multi-crash schedules.", "anchors": ["src/safeposix/filesystem.rs:load_fs", "src/safeposix/filesystem.rs:persist_metadata", "src/safeposix/dispatcher.rs:lindrustfinalize"]}
{"id": "C29", "title": "getdents lists every entry exactly once", "statement": "Repeated getdents calls with any buffer sizes large enough for the next record return every entry of an unchanging directory exactly once, then 0; no call writes beyond its buffer; each record's length is a multiple of 8 and is where the next record starts.", "quantifier": "every directory content and every sequence of buffer sizes", "why_tests_cant": "Cursor arithmetic for all name lengths and buffer sizes.", "anchors": ["src/safeposix/syscalls/fs_calls.rs:getdents_syscall", "src/interface/types.rs:pack_dirents"]}
{"id": "C30", "title": "Device numbers round-trip", "statement": "major(makedev(a,b)) = a and minor(makedev(a,b)) = b for all 32-bit a and b, and distinct pairs give distinct device numbers.", "quantifier": "all 2^64 pairs", "why_tests_cant": "2^64 pairs cannot be enumerated.", "anchors": ["src/safeposix/syscalls/fs_constants.rs:makedev", "src/safeposix/syscalls/fs_constants.rs:major", "src/safeposix/syscalls/fs_constants.rs:minor"]}
{"id": "C31", "title": "A port is never handed to two exclusive owners", "statement": "Two sockets that did not both ask for SO_REUSEPORT never simultaneously hold overlapping (address, port, protocol) reservations; a bind to a reserved port is EADDRINUSE.", "quantifier": "every history of reserve and release calls", "why_tests_cant": "Needs the invariant over all histories of the port table.", "anchors": ["src/safeposix/net.rs:NetMetadata::_reserve_localport", "src/safeposix/net.rs:NetMetadata::_release_localport"]}
{"id": "C32", "title": "Releasing a port makes it available again", "statement": "Releasing a reservation succeeds exactly once per successful reservation, never disturbs other reservations, and afterwards the port can be reserved again.", "quantifier": "every history of reserve and release calls", "why_tests_cant": "Histories with re-binding and wildcard addresses.", "anchors": ["src/safeposix/net.rs:NetMetadata::_release_localport", "src/safeposix/syscalls/net_calls.rs:_cleanup_socket_inner_helper"]}
{"id": "C33", "title": "Ephemeral ports stay in range and are distinct while held", "statement": "A reservation of port 0 yields a port in 32768..=60999 that is not currently reserved for that protocol on any overlapping address, and fails only if none is free.", "quantifier": "every port-table state and counter value", "why_tests_cant": "Wrap-around of the search over all counter positions.", "anchors": ["src/safeposix/net.rs:NetMetadata::_get_available_tcp_port", "src/safeposix/net.rs:NetMetadata::_get_available_udp_port"]}
{"id": "C34", "title": "Shared memory attach counts are exact", "statement": "shm_nattch equals the number of current attachments of the segment over all cages, under shmat, shmdt, fork, exec and exit; each cage's recorded count equals its own number of attachments.", "quantifier": "every history of shm calls, forks, execs and exits", "why_tests_cant": "Counting invariant over multi-cage histories.", "anchors": ["src/safeposix/shm.rs:ShmSegment::map_shm", "src/safeposix/shm.rs:ShmSegment::unmap_shm", "src/safeposix/syscalls/fs_calls.rs:shmat_syscall", "src/safeposix/syscalls/fs_calls.rs:shmdt_syscall", "src/safeposix/syscalls/sys_calls.rs:fork_syscall", "src/safeposix/syscalls/sys_calls.rs:unmap_shm_mappings"]}
{"id": "C35", "title": "A removed segment lives until its last detach", "statement": "After IPC_RMID a segment stays attached where it is attached and is destroyed exactly when the last attachment goes away; its key then no longer finds it; ids are never reused; shmget with IPC_CREAT|IPC_EXCL never returns an existing segment.", "quantifier": "every history of shm calls", "why_tests_cant": "Life-cycle over all histories.", "anchors": ["src/safeposix/syscalls/fs_calls.rs:shmget_syscall", "src/safeposix/syscalls/fs_calls.rs:shmctl_syscall", "src/safeposix/syscalls/fs_calls.rs:shmdt_syscall"]}
{"id": "C36", "title": "Signal mask algebra", "statement": "sigprocmask with SIG_BLOCK, SIG_UNBLOCK, SIG_SETMASK sets the mask to old∪set, old\\set, set; it reports the previous mask; SIG_BLOCK followed by SIG_UNBLOCK of the same set restores a disjoint mask; delivery of a pending signal happens only when it becomes unblocked.", "quantifier": "every 64-bit mask and set", "why_tests_cant": "2^128 combinations.", "anchors": ["src/safeposix/syscalls/sys_calls.rs:sigprocmask_syscall", "src/interface/misc.rs:lind_sigaddset", "src/interface/misc.rs:lind_sigismember"]}
{"id": "C37", "title": "Signal dispositions", "statement": "sigaction reports the last installed action for a signal, replaces only that signal's action, and can never install a handler for SIGKILL or SIGSTOP.", "quantifier": "every history of sigaction calls and every signal number", "why_tests_cant": "Last-writer-wins over all histories.", "anchors": ["src/safeposix/syscalls/sys_calls.rs:sigaction_syscall"]}
{"id": "C38", "title": "Access modes are enforced on every descriptor", "statement": "A read on a write-only descriptor and a write, ftruncate or pwrite on a read-only descriptor fail with EBADF/EINVAL and transfer nothing; reading or writing a directory descriptor is EISDIR/EBADF.", "quantifier": "every descriptor kind, flag word and call", "why_tests_cant": "Decision table over all flag words.", "anchors": ["src/safeposix/syscalls/fs_calls.rs:read_syscall", "src/safeposix/syscalls/fs_calls.rs:write_syscall", "src/safeposix/syscalls/fs_calls.rs:pread_syscall", "src/safeposix/syscalls/fs_calls.rs:pwrite_syscall", "src/safeposix/syscalls/fs_calls.rs:ftruncate_syscall"]}
{"id": "C39", "title": "chmod changes permission bits only", "statement": "chmod/fchmod set the permission bits to the requested ones and leave file type, size, links and content alone; invalid mode bits are EINVAL and change nothing; stat then reports the new mode.", "quantifier": "every inode and mode word", "why_tests_cant": "All mode words and inode kinds.", "anchors": ["src/safeposix/syscalls/fs_calls.rs:_chmod_helper", "src/safeposix/syscalls/fs_calls.rs:chmod_syscall", "src/safeposix/syscalls/fs_calls.rs:fchmod_syscall"]}
{"id": "C40", "title": "Unix stream sockets are two independent FIFO byte streams", "statement": "Bytes sent on one end of a connected unix stream socket are received on the other end in order, without loss or duplication, and the two directions do not mix.", "quantifier": "every history of send, recv (with or without MSG_PEEK), read and write on both ends", "why_tests_cant": "Ordering over all histories and buffer sizes.", "anchors": ["src/safeposix/syscalls/net_calls.rs:send_syscall", "src/safeposix/syscalls/net_calls.rs:recv_common_inner_tcp", "src/safeposix/syscalls/net_calls.rs:socketpair_syscall", "src/safeposix/net.rs:create_unix_sockpipes"]}
{"id": "C41", "title": "MSG_PEEK does not consume", "statement": "A recv with MSG_PEEK returns the bytes the next recv would return and leaves the sequence of bytes received by later calls unchanged.", "quantifier": "every stream content, peek history and buffer size", "why_tests_cant": "Interleavings of peeks and reads with different sizes.", "anchors": ["src/safeposix/syscalls/net_calls.rs:recv_common_inner_tcp"]}
{"id": "C42", "title": "select reports exactly the ready requested descriptors", "statement": "select returns the number of bits set in the result sets; a result bit is set only for a requested, open, ready descriptor; it returns EBADF exactly if some requested descriptor below nfds is closed; it does not return 0 before the timeout if one is ready.", "quantifier": "every descriptor table, sets and nfds", "why_tests_cant": "2^1024 sets.", "anchors": ["src/safeposix/syscalls/net_calls.rs:select_syscall", "src/safeposix/syscalls/net_calls.rs:select_readfds", "src/safeposix/syscalls/net_calls.rs:select_writefds"]}
{"id": "C43", "title": "poll reports per-descriptor events soundly", "statement": "poll returns the number of entries with non-zero revents; a bit other than POLLNVAL/POLLERR/POLLHUP is set only if requested and ready; negative descriptors are ignored; closed ones get POLLNVAL.", "quantifier": "every array of requests and descriptor table", "why_tests_cant": "Arrays of unbounded length.", "anchors": ["src/safeposix/syscalls/net_calls.rs:poll_syscall"]}
{"id": "C44", "title": "epoll interest list behaves as a map, epoll_wait returns only registered ready descriptors", "statement": "epoll_ctl ADD/MOD/DEL on a descriptor act like insert-new/replace/remove on a map with EEXIST/ENOENT otherwise; epoll_wait returns at most maxevents events, each for a registered open descriptor, with only requested event bits.", "quantifier": "every history of epoll_ctl and every wait", "why_tests_cant": "Map semantics over all histories.", "anchors": ["src/safeposix/syscalls/net_calls.rs:epoll_ctl_syscall", "src/safeposix/syscalls/net_calls.rs:epoll_wait_syscall"]}
{"id": "C45", "title": "Dispatcher accepts exactly the well-formed integer arguments", "statement": "A 32-bit argument is passed on unchanged iff the upper half of the 64-bit argument slot is zero, otherwise the call fails with EINVAL without being run; null pointers give EFAULT.", "quantifier": "all 2^64 argument words", "why_tests_cant": "2^64 words.", "anchors": ["src/interface/types.rs:get_int", "src/interface/types.rs:get_uint", "src/safeposix/dispatcher.rs:check_and_dispatch"]}
{"id": "C46", "title": "getcwd names the working directory", "statement": "After a successful chdir(p), getcwd returns an absolute normalised path that resolves to the same directory; getcwd never writes beyond its buffer and fails with ERANGE exactly if it does not fit.", "quantifier": "every path, cwd and buffer size", "why_tests_cant": "All paths and sizes.", "anchors": ["src/safeposix/syscalls/fs_calls.rs:chdir_syscall", "src/safeposix/syscalls/fs_calls.rs:fchdir_syscall", "src/safeposix/syscalls/fs_calls.rs:getcwd_syscall", "src/safeposix/filesystem.rs:pathnamefrominodenum"]}
{"id": "C47", "title": "Mutex and condition variable handles", "statement": "mutex_create/cond_create return handles not in use; a handle designates the same object until destroyed; calls on handles never created or destroyed fail with EBADF; creating or destroying one handle affects no other.", "quantifier": "every history of create and destroy calls", "why_tests_cant": "Handle reuse over all histories.", "anchors": ["src/safeposix/syscalls/fs_calls.rs:mutex_create_syscall", "src/safeposix/syscalls/fs_calls.rs:mutex_destroy_syscall", "src/safeposix/syscalls/fs_calls.rs:cond_create_syscall"]}
{"id": "C48", "title": "Socket options round-trip independently", "statement": "getsockopt returns what setsockopt last set for that option (initially off), setting one option leaves all other options alone.", "quantifier": "every history of setsockopt calls and option", "why_tests_cant": "Bit-field independence over all option words.", "anchors": ["src/safeposix/syscalls/net_calls.rs:setsockopt_syscall", "src/safeposix/syscalls/net_calls.rs:getsockopt_syscall", "src/safeposix/syscalls/net_calls.rs:mksockhandle"]}
{"id": "C49", "title": "Socket connection state machine", "statement": "send and recv succeed only in connected (or suitably half-shut) states; accept only when listening; SHUT_RD then SHUT_WR (either order) is SHUT_RDWR; a shut-down direction never becomes usable again without a new connection.", "quantifier": "every history of socket calls on one socket", "why_tests_cant": "Unreachable-state claims over all histories.", "anchors": ["src/safeposix/syscalls/net_calls.rs:listen_syscall", "src/safeposix/syscalls/net_calls.rs:connect_tcp", "src/safeposix/syscalls/net_calls.rs:accept_unix", "src/safeposix/syscalls/net_calls.rs:send_syscall", "src/safeposix/syscalls/net_calls.rs:recv_common_inner_tcp", "src/safeposix/syscalls/net_calls.rs:_cleanup_socket_inner_helper"]}
{"id": "C50", "title": "Cages are isolated", "statement": "A system call made by one cage never changes the descriptor table or working directory of another cage (fork creates, exec and exit remove cages); what other cages observe changes only through shared files, pipes, sockets and segments.", "quantifier": "every state, call and pair of cages", "why_tests_cant": "Frame property over all calls and states.", "anchors": ["src/safeposix/cage.rs:Cage", "src/safeposix/syscalls/sys_calls.rs:fork_syscall", "src/safeposix/syscalls/sys_calls.rs:exit_syscall", "src/interface/misc.rs:cagetable_insert"]}
{"id": "C51", "title": "Unlinked open files keep their content until the last close", "statement": "After unlink of a file that is open, its descriptors continue to read and write the same content, no path leads to it, and the last close frees it.", "quantifier": "every history in which a file is open somewhere while its last name is removed", "why_tests_cant": "Ordering of close/unlink over several cages.", "anchors": ["src/safeposix/syscalls/fs_calls.rs:unlink_syscall", "src/safeposix/syscalls/fs_calls.rs:_close_helper_inner"]}
{"id": "C52", "title": "Interval timer fires and re-arms as specified", "statement": "A one-shot timer fires exactly once, not before its value elapsed; a periodic one re-arms with its interval; setting value zero disarms it; setitimer reports the previous setting.", "quantifier": "every sequence of ticks and settings", "why_tests_cant": "All tick schedules.", "anchors": ["src/interface/timer.rs:IntervalTimer"]}
{"id": "C53", "title": "File data survives clean restart", "statement": "After a clean shutdown and restart every path resolves to the same inode with the same attributes (except unix sockets, /tmp content and unnamed files, which are gone).", "quantifier": "every history before the shutdown", "why_tests_cant": "All reachable states.", "anchors": ["src/safeposix/dispatcher.rs:lindrustfinalize", "src/safeposix/dispatcher.rs:lindrustinit", "src/safeposix/filesystem.rs:load_fs", "src/safeposix/filesystem.rs:persist_metadata"]}
{"id": "C54", "title": "Unix socket names", "statement": "bind on a free path creates exactly one socket name, bind on an existing path is EADDRINUSE and leaves the socket unbound, and a socket is bound at most once; getsockname reports the bound address.", "quantifier": "every file system and socket state", "why_tests_cant": "Error paths must leave the socket state unchanged in every state.", "anchors": ["src/safeposix/syscalls/net_calls.rs:bind_inner_socket", "src/safeposix/syscalls/net_calls.rs:bind_inner_socket_unix", "src/safeposix/syscalls/net_calls.rs:getsockname_syscall"]}
{"id": "C55", "title": "Directory structure stays well formed", "statement": "In every reachable state every directory entry designates an existing object, every directory contains '.' and '..', and names within a directory are unique and designate one object.", "quantifier": "every history of namespace calls", "why_tests_cant": "Graph invariant over all histories.", "anchors": ["src/safeposix/syscalls/fs_calls.rs:mkdir_syscall", "src/safeposix/syscalls/fs_calls.rs:rmdir_syscall", "src/safeposix/syscalls/fs_calls.rs:unlink_syscall", "src/safeposix/syscalls/fs_calls.rs:rename_syscall", "src/safeposix/filesystem.rs:fsck"]}
{"id": "C56", "title": "access and open permission decisions", "statement": "access(path, mode) succeeds iff the object exists and its owner permission bits include every requested bit; open/mkdir/mknod/creat reject invalid mode bits with EPERM and create nothing.", "quantifier": "every mode word and path", "why_tests_cant": "All mode words.", "anchors": ["src/safeposix/syscalls/fs_calls.rs:access_syscall", "src/safeposix/syscalls/fs_calls.rs:open_syscall", "src/safeposix/syscalls/fs_calls.rs:mkdir_syscall"]}
{"id": "C57", "title": "fcntl flags", "statement": "F_SETFD sets only close-on-exec, F_SETFL sets only the status flags and never the access mode or close-on-exec; F_GETFD/F_GETFL report them; negative arguments are EINVAL.", "quantifier": "every flag word and argument", "why_tests_cant": "Bit-level independence over all words.", "anchors": ["src/safeposix/syscalls/fs_calls.rs:fcntl_syscall"]}
{"id": "C58", "title": "No call aborts the program", "statement": "No system call of one cage, whatever its arguments, aborts the process that all cages share: it returns a value or an error, or waits.", "quantifier": "every reachable state, every cage, every call and all its arguments", "why_tests_cant": "The abort conditions depend on combinations of kernel state and arguments; absence needs all states.", "anchors": ["src/safeposix/syscalls/fs_calls.rs", "src/safeposix/syscalls/sys_calls.rs:fork_syscall", "src/safeposix/cage.rs:get_filedescriptor"]}
{"id": "C59", "title": "Textual addresses and the device list", "statement": "A dotted-quad text is read as an IPv4 address exactly when it consists of four decimal fields of at most 255, and gives those bytes in order; a colon text follows the standard IPv6 form; no text aborts the program; the local address list is the devices' addresses in file order followed by the wildcard address, and getifaddrs hands over the whole device text or nothing.", "quantifier": "every text, every device file in the generator's format, every buffer size", "why_tests_cant": "Acceptance must be exact over all strings; tests sample a handful.", "anchors": ["src/interface/comm.rs:GenIpaddr::from_string", "src/safeposix/net.rs:ips_from_ifaddrs", "src/safeposix/syscalls/net_calls.rs:getifaddrs_syscall"]}
{"id": "C60", "title": "Socket addresses cross the call boundary unchanged", "statement": "An address structure passed to bind, connect or sendto reaches the call field for field and depends only on the bytes the caller declared; accept, recvfrom, getpeername and getsockname write exactly the bytes that fit, leave all other memory alone, report the full length, write nothing on failure, and what they write can be passed back.", "quantifier": "every address of every supported family, every declared length, every content of the caller's memory", "why_tests_cant": "Depends on all field values, lengths and on memory outside the structure.", "anchors": ["src/interface/types.rs:get_sockaddr", "src/interface/types.rs:copy_out_sockaddr", "src/safeposix/dispatcher.rs:dispatcher", "src/interface/comm.rs:new_sockaddr_unix"]}
{"id": "C61", "title": "Descriptor table under concurrent calls", "statement": "When several threads of a cage call open, pipe, socket, dup, dup2, close and other calls at once, no number is handed out twice or over a descriptor in use, no descriptor changes its object except by a close of it or a dup2 onto it, each object is released exactly when its last descriptor goes, open returns the lowest free number, and calls never block each other for good.", "quantifier": "every interleaving of the lock operations of any number of threads", "why_tests_cant": "The windows between lock releases are a few instructions wide; only all interleavings settle it.", "anchors": ["src/safeposix/cage.rs:get_next_fd", "src/safeposix/syscalls/fs_calls.rs:_dup2_helper", "src/safeposix/syscalls/fs_calls.rs:_close_helper", "src/safeposix/syscalls/fs_calls.rs:_close_helper_inner"]}
{"id": "C62", "title": "Each path call gives the answer its situation calls for", "statement": "The result of open, mkdir, mknod, link, unlink, rmdir, rename, chmod, chdir and truncate is decided by what the path designates (root, object of some kind, free name in a directory, no place), by permission bits and by the arguments, with the documented error for each case; mkdir, mknod and link make exactly the one name and object asked for and change nothing else.", "quantifier": "every reachable state, every path and every argument", "why_tests_cant": "Tests try a handful of paths per call; the table must hold for every directory tree that histories can build.", "anchors": ["src/safeposix/syscalls/fs_calls.rs:mkdir_syscall", "src/safeposix/syscalls/fs_calls.rs:mknod_syscall", "src/safeposix/syscalls/fs_calls.rs:link_syscall", "src/safeposix/syscalls/fs_calls.rs:unlink_syscall", "src/safeposix/syscalls/fs_calls.rs:rmdir_syscall", "src/safeposix/syscalls/fs_calls.rs:rename_syscall", "src/safeposix/syscalls/fs_calls.rs:open_syscall"]}
{"id": "C63", "title": "Devices and standard streams", "statement": "Reading /dev/zero gives as many zero bytes as asked for, reading /dev/null gives none, writing to either takes every byte, neither keeps data or a position, and a new cage's descriptors 0, 1 and 2 are the standard streams: 0 can only be read, 1 and 2 only written, and the written bytes reach the terminal unchanged.", "quantifier": "every state in which a descriptor designates a device, every count and every byte sequence", "why_tests_cant": "Counts and contents are unbounded; the descriptor may have any flags, position and history.", "anchors": ["src/safeposix/syscalls/fs_calls.rs:_read_chr_file", "src/safeposix/syscalls/fs_calls.rs:_write_chr_file", "src/safeposix/syscalls/fs_calls.rs:lseek_syscall", "src/safeposix/filesystem.rs:init_fs"]}
{"id": "C64", "title": "Internet sockets pass exactly the caller's bytes", "statement": "On a connected stream socket the bytes returned by recv, through any of its descriptors, are what arrived, each once and in order; send and sendto pass the caller's bytes unchanged to the named or connected destination and report what was taken; a datagram arrives with its sender, up to the size asked for; a call on one socket changes no other; a socket lives as long as a descriptor leads to it; accept gives a new socket connected to the reported peer, with the local address the peer connected to; a port is held exactly as long as a socket uses it; a failed call leaves the socket usable.", "quantifier": "every history of socket calls on any number of sockets and descriptors, and every behaviour of the host", "why_tests_cant": "Depends on every interleaving of peeks, partial reads, duplicated descriptors, failures and host answers.", "anchors": ["src/safeposix/syscalls/net_calls.rs:recv_common", "src/safeposix/syscalls/net_calls.rs:send_syscall", "src/safeposix/syscalls/net_calls.rs:sendto_syscall", "src/safeposix/syscalls/net_calls.rs:connect_syscall", "src/safeposix/syscalls/net_calls.rs:accept_syscall", "src/safeposix/syscalls/net_calls.rs:netshutdown_syscall"]}
{"id": "C65", "title": "Concurrent path calls behave like calls one after the other", "statement": "Calls on paths made at the same time by several threads or cages (open, mkdir, mknod, link, unlink, rmdir, rename, chmod, stat, and close of what they opened) have the results and the effect of the same calls made one after the other in some order: exactly one of two exclusive creations of a name succeeds, a call never aborts the program because another one is under way, no entry is lost or left dangling, link counts stay exact, and the log ends with the current state of every inode.", "quantifier": "every number of threads, every file tree, every list of calls and every interleaving of their critical sections", "why_tests_cant": "The interleavings of the critical sections of concurrent calls cannot be enumerated or reproduced by tests.", "anchors": ["src/safeposix/syscalls/fs_calls.rs:open_syscall", "src/safeposix/syscalls/fs_calls.rs:mkdir_syscall", "src/safeposix/syscalls/fs_calls.rs:link_syscall", "src/safeposix/syscalls/fs_calls.rs:unlink_syscall", "src/safeposix/syscalls/fs_calls.rs:rmdir_syscall", "src/safeposix/syscalls/fs_calls.rs:rename_syscall", "src/safeposix/syscalls/fs_calls.rs:remove_from_parent_dir", "src/safeposix/filesystem.rs:metawalkandparent", "src/safeposix/filesystem.rs:log_metadata"]}
{"id": "C66", "title": "Deleting a tree deletes exactly that tree; clearing /tmp empties it", "statement": "Deleting a directory tree with the file tool removes the directory and everything below it, whatever the permissions below, and nothing else: every path outside leads where it led, files with another name or still open keep their bytes, the parent loses just that entry, no descriptor is left open, and the tool returns. Clearing /tmp at start and shutdown leaves /tmp there with its mode, empty, and everything outside untouched; at start a missing /tmp is made.", "quantifier": "every reachable file tree, every depth and size, every path, every descriptor table", "why_tests_cant": "The tools recurse over trees of any shape with a fixed buffer, and tests try a few small trees.", "anchors": ["src/lib_fs_utils.rs:lind_deltree", "src/lib_fs_utils.rs:visit_children", "src/safeposix/dispatcher.rs:cleartmp"]}
{"id": "C67", "title": "Concurrent calls on open files are atomic", "statement": "Calls on open descriptors made at the same time by several threads or cages (read, pread, write, pwrite, writev, lseek, ftruncate, fstat, fchmod, getdents) have the results and the effect of the same calls each made at one moment between its begin and its end: threads that write through one descriptor never overwrite each other's bytes, a reader never sees half of a write, no set of such calls blocks itself for ever, and once they have returned their effect survives a crash as it would had they been made one after the other.", "quantifier": "every number of threads, cages and descriptors, every file, every list of calls and every interleaving of their steps between lock operations", "why_tests_cant": "The interleavings of the calls' steps cannot be enumerated or reproduced by tests.", "anchors": ["src/safeposix/syscalls/fs_calls.rs:read_syscall", "src/safeposix/syscalls/fs_calls.rs:pread_syscall", "src/safeposix/syscalls/fs_calls.rs:write_syscall", "src/safeposix/syscalls/fs_calls.rs:pwrite_syscall", "src/safeposix/syscalls/fs_calls.rs:writev_syscall", "src/safeposix/syscalls/fs_calls.rs:lseek_syscall", "src/safeposix/syscalls/fs_calls.rs:ftruncate_syscall", "src/safeposix/syscalls/fs_calls.rs:fchmod_syscall", "src/safeposix/syscalls/fs_calls.rs:getdents_syscall", "src/safeposix/filesystem.rs:log_metadata"]}
{"id": "C68", "title": "A memory mapping stays within the rights of its descriptor", "statement": "mmap of a file reaches the host only for a regular file that the descriptor has open, opened for reading, opened for reading and writing if the mapping is shared and writable, and from an offset within the file; it is then asked for with exactly the address, length, protection and flags the program gave. What the rights allow is asked for. Every other request is refused with the documented error and none ends the process. The program is told the address of its mapping, and the reason of a refusal. munmap takes access away from exactly the given range.", "quantifier": "every reachable state, cage, address, length, protection, flags, descriptor, offset and answer of the host", "why_tests_cant": "The combinations of flag bits, protections, open modes and offsets are too many to enumerate, and the host's addresses cannot be chosen by a test.", "anchors": ["src/safeposix/syscalls/fs_calls.rs:mmap_syscall", "src/safeposix/syscalls/fs_calls.rs:munmap_syscall", "src/interface/misc.rs:libc_mmap"]}
{"id": "C69", "title": "Synchronising and describing files answers for the right file", "statement": "fsync, fdatasync and sync_file_range on an open regular file ask the host to write out exactly that file and report the host's answer; on anything else they give the documented error. statfs succeeds on exactly the paths on which stat does, fstatfs on exactly the open files, and all describe one file system consistently. ioctl FIONBIO switches exactly the non-blocking flag of the socket; other requests change nothing. gethostname stores at most the given number of bytes. None ends the process.", "quantifier": "every reachable state, cage, descriptor number, path, range, request and answer of the host", "why_tests_cant": "Each answer depends on the kind, flags and number of the descriptor in whichever state the history produced.", "anchors": ["src/safeposix/syscalls/fs_calls.rs:fsync_syscall", "src/safeposix/syscalls/fs_calls.rs:fdatasync_syscall", "src/safeposix/syscalls/fs_calls.rs:sync_file_range_syscall", "src/safeposix/syscalls/fs_calls.rs:statfs_syscall", "src/safeposix/syscalls/fs_calls.rs:fstatfs_syscall", "src/safeposix/syscalls/fs_calls.rs:ioctl_syscall", "src/safeposix/syscalls/net_calls.rs:gethostname_syscall"]}
{"id": "C70", "title": "A process knows itself, its parent and its user", "statement": "getpid gives each living process its own number. getppid gives a forked process the number of the process that forked it, whatever other processes do meanwhile, and exec does not change it. getuid, geteuid, getgid and getegid give the same answer each time they are asked, and forked processes give that answer too.", "quantifier": "every history of calls of all cages", "why_tests_cant": "The answers must hold after every history of forks, execs, exits and other calls of all processes.", "anchors": ["src/safeposix/syscalls/sys_calls.rs:getpid_syscall", "src/safeposix/syscalls/sys_calls.rs:getppid_syscall", "src/safeposix/syscalls/sys_calls.rs:getuid_syscall", "src/safeposix/syscalls/sys_calls.rs:fork_syscall", "src/safeposix/syscalls/sys_calls.rs:exec_syscall"]}
{"id": "C71", "title": "Cancellation ends exactly the thread that was marked", "statement": "A thread that was marked for cancellation ends at its next cancellation point, whatever happens to other threads and processes; a thread that was not marked never ends there; asking about a thread or passing a cancellation point does not end the whole process.", "quantifier": "every history of marking, removing, asking and passing cancellation points, by all threads of all cages", "why_tests_cant": "The histories of all threads of all cages are unbounded.", "anchors": ["src/safeposix/dispatcher.rs:lindthreadremove", "src/safeposix/dispatcher.rs:lindsetthreadkill", "src/safeposix/dispatcher.rs:lindcheckthread", "src/interface/misc.rs:cancelpoint"]}
{"id": "C72", "title": "What fsync reported written is there after the power failed", "statement": "After fsync has succeeded on a file, and after any further calls, whenever the power fails: when the system comes up again the file has its name, its size, and a content it had at or after the fsync.", "quantifier": "every history of calls before and after the fsync, every moment of failure, and every choice of what else had reached the disk", "why_tests_cant": "A test cannot cut the power at every moment, nor choose what the host had written out.", "anchors": ["src/safeposix/syscalls/fs_calls.rs:fsync_syscall", "src/safeposix/syscalls/fs_calls.rs:fdatasync_syscall", "src/interface/file.rs:fsync", "src/interface/file.rs:write_to_map", "src/safeposix/filesystem.rs:log_metadata", "src/safeposix/filesystem.rs:load_fs"]}
{"id": "C73", "title": "The number of an error tells which error it is", "statement": "Every failing call answers the negative of Linux's number of its error: different errors have different numbers, and none looks like success. An error that the host reports reaches the program with the host's number.", "quantifier": "every error the interface can answer and every error number the host can give", "why_tests_cant": "Only a proof over the whole table excludes two errors with one number or a number the table lacks.", "anchors": ["src/interface/errnos.rs:Errno", "src/interface/errnos.rs:syscall_error", "src/interface/errnos.rs:reversible_enum"]}
{"id": "C74", "title": "Opening with O_TRUNC empties exactly that file", "statement": "Opening an existing regular file with O_TRUNC leaves it without a byte under every one of its names, keeps its permissions and names, and touches no other object. Directories and devices are not affected, an open that fails empties nothing, and the other descriptors of the file keep their positions: reading through them gives the end of file, writing leaves a gap of zeros.", "quantifier": "every reachable state, path, access mode and set of descriptors open on the file", "why_tests_cant": "The content, the recorded size, the host's file and the descriptors of other processes must agree after every history.", "anchors": ["src/safeposix/syscalls/fs_calls.rs:open_syscall", "src/safeposix/syscalls/fs_calls.rs:creat_syscall"]}
{"id": "C75", "title": "Files copied from the host arrive whole, and nothing else changes", "statement": "The file tool's copy puts every regular file of a host file or directory at its path in the Lind file system, with exactly its content and with the directories it needs; its update does the same where the file differs or is missing, leaves equal files alone, replaces rather than overwrites a file that differs, and done twice changes nothing the second time. No other path, content or attribute changes and no descriptor is left open. A copy that cannot be done is reported and changes nothing but directories on the way.", "quantifier": "every reachable state of the file system, every finite host tree with any contents, every target path", "why_tests_cant": "The trees, contents, sizes and states of the target are unbounded; a copy goes through a long sequence of calls, each of which may find something in the way.", "anchors": ["src/lib_fs_utils.rs:cp_into_lind", "src/lib_fs_utils.rs:cp_dir_into_lind", "src/lib_fs_utils.rs:update_into_lind", "src/lib_fs_utils.rs:update_dir_into_lind"]}
{"id": "C76", "title": "A call on a descriptor fails exactly when something is wrong, and says what", "statement": "In every reachable state, for each call on a descriptor number below 1024 (read, pread, write, pwrite, writev, lseek, fstat, fchmod, fchdir, ftruncate, getdents, dup, dup2, close, fcntl), whatever the descriptor is open on: if the call is answered with an error then POSIX or Linux has that error for that situation (not open, not open for this access, a directory, no position, a position before the beginning, not a directory, a negative length, an unknown command, a descriptor number out of range) and the state is unchanged; and if there is such a situation the call is answered with an error.", "quantifier": "all reachable states, all descriptors and what they can be open on (regular file, directory, device, pipe, standard stream, epoll instance, socket, nothing), all calls and arguments", "why_tests_cant": "Fifteen calls times eight kinds of object times access modes and argument ranges; a test samples a few cells of the table, and cannot show that an answer without a reason never occurs.", "anchors": ["src/safeposix/syscalls/fs_calls.rs: read_syscall, pread_syscall, write_syscall, pwrite_syscall, writev_syscall, lseek_syscall, fstat_syscall, fchmod_syscall, fchdir_syscall, ftruncate_syscall, getdents_syscall, dup_syscall, dup2_syscall, close_syscall, fcntl_syscall"]}
{"id": "C77", "title": "Unix stream sockets report the other side gone exactly when it is", "statement": "On a connected unix stream socket, a receive reports end of stream if and only if every byte sent was received and no open descriptor (in any process) and no connection waiting to be accepted can send on it any more; a send fails with EPIPE if and only if no open descriptor and no waiting connection can receive from it any more. Closing one of several descriptors of a socket changes nothing for the others.", "quantifier": "every history of socket, bind, listen, connect, accept, send, writev, recv, shutdown, dup, fork, close and socketpair on any number of unix stream sockets and descriptors", "why_tests_cant": "The number of references to each end depends on the whole history of dup, fork, accept and close; a test follows one such history, and a missing or superfluous reference shows only at the last close.", "anchors": ["src/safeposix/syscalls/fs_calls.rs:_close_helper_inner", "src/safeposix/syscalls/fs_calls.rs:_dup2_helper", "src/safeposix/syscalls/sys_calls.rs:fork_syscall", "src/safeposix/syscalls/net_calls.rs:connect_tcp_unix", "src/safeposix/syscalls/net_calls.rs:accept_unix", "src/interface/pipe.rs:incr_ref, decr_ref, is_pipe_closed"]}
{"id": "C78", "title": "A crash inside a call leaves the call done or not done", "statement": "When the process dies in the middle of a call, after some of the log records of the call have been appended and before the others have been, the system comes up again at the next start and is as it was before that call or as it would have been after it: every path leads to what it led to in one of the two states, with the same kind, mode, link count, entries and size. In any case no object is a mixture of its two states, and a path that means the same before and after the call means the same after the crash.", "quantifier": "every session of calls of any cages since a start, every call and every point inside it between two log records, every content of the host files", "why_tests_cant": "A crash between two appends inside one call needs the process to be killed within microseconds; tests kill it between calls or not at all, and the damage shows only after a restart, in a later call on the name concerned.", "anchors": ["src/safeposix/filesystem.rs:log_metadata", "src/safeposix/filesystem.rs:load_fs", "src/safeposix/filesystem.rs:fsck", "src/safeposix/syscalls/fs_calls.rs:mkdir_syscall", "src/safeposix/syscalls/fs_calls.rs:link_syscall", "src/safeposix/syscalls/fs_calls.rs:unlink_syscall", "src/safeposix/syscalls/fs_calls.rs:rmdir_syscall", "src/safeposix/syscalls/fs_calls.rs:open_syscall"]}
{"id": "C79", "title": "After a crash, calls that ran at the same time are as if logged in the order of their effects", "statement": "When calls of several threads run at the same time and the process dies, each file or directory is after the restart what it was at some moment of the execution, and when all the calls had returned before the crash, it is what it was at the crash: no call that has returned is undone because another call ran at the same time.", "quantifier": "any number of threads, every interleaving of their steps (change an inode, serialise it, append the record), every moment of the crash, every metadata to start from", "why_tests_cant": "Whether two threads append their records in the order in which they changed the inode is decided by a window of a few instructions; a test cannot choose the interleaving, and the loss shows only after a crash.", "anchors": ["src/safeposix/filesystem.rs:log_metadata", "src/safeposix/filesystem.rs:load_fs", "src/safeposix/syscalls/fs_calls.rs:write_syscall", "src/safeposix/syscalls/fs_calls.rs:open_syscall", "src/safeposix/syscalls/fs_calls.rs:unlink_syscall", "src/safeposix/syscalls/fs_calls.rs:_chmod_helper"]}
{"id": "C80", "title": "Port reservations made by several threads at once", "statement": "However the bind, connect and close calls of any number of threads interleave: no two reservations held at one moment conflict (same port and protocol, overlapping address, not both sharing); a thread that asks for any free port is given a port of the ephemeral range that nobody holds for an overlapping address at that moment; it is refused only if each port of the range was held while it searched; and no interleaving leaves the table locked.", "quantifier": "all numbers of threads, all interleavings of the steps of their calls, all addresses, ports, protocols and sharing flags, all histories", "why_tests_cant": "A test runs a few schedules; a race between the search for an ephemeral port and a bind to a given port shows only when the other call falls between two tries of the search.", "anchors": ["src/safeposix/net.rs: NetMetadata::_reserve_localport, _release_localport, _get_available_udp_port, _get_available_tcp_port, initialize_port"]}
{"id": "C81", "title": "connect and accept meet one to one", "statement": "However the connect and accept calls of any number of threads on unix stream sockets interleave: a blocking connect returns success only when an accept has taken it; an accept only returns a connection that was requested at its path, and the requester is told; every connection is accepted by at most one accept; no connect that waits is lost, so that it would wait although accepts follow; and removing the name of the socket does not block for ever.", "quantifier": "all numbers of threads, all interleavings of the steps of connect, accept, bind and the calls that remove a name, all paths, blocking and not", "why_tests_cant": "The windows in which another call has to fall are a few instructions long; a test cannot show that a waiting connect never returns.", "anchors": ["src/safeposix/syscalls/net_calls.rs: connect_tcp_unix, accept_unix", "src/safeposix/net.rs: ConnCondVar, DomsockTableEntry, NetMetadata.domsock_accept_table, NetMetadata.domsock_paths"]}
{"id": "C82", "title": "Shared memory calls by several threads", "statement": "However the shmget, shmat, shmdt and shmctl(IPC_RMID) calls of any number of threads interleave: the attach count is the number of attachments that exist; an identifier is never given to a second segment, and a removed segment does not come back; the identifier shmget returns for a key in use is that of a segment with that key; a segment marked for removal exists until its last attachment is detached, so that no shmdt panics; every segment can be found by its key; and calls do not block one another for ever.", "quantifier": "all numbers of threads and cages, all interleavings of the steps of the four calls between taking and giving back locks, all keys, identifiers and addresses", "why_tests_cant": "Each violation needs a second call within a window of a few instructions between two table accesses; a test cannot run all interleavings, and cannot show that two threads stay blocked.", "anchors": ["src/safeposix/syscalls/fs_calls.rs: shmget_syscall, shmat_syscall, shmdt_syscall, shmctl_syscall", "src/safeposix/shm.rs: ShmMetadata, ShmSegment, map_shm, unmap_shm", "src/safeposix/cage.rs: Cage.rev_shm"]}
{"id": "C83", "title": "Pipes used by several threads: vectored writes stay whole, calls that must not wait do not, nobody deadlocks", "statement": "However the reads, writes and vectored writes of any number of threads on one pipe interleave: the bytes of a vectored write stay together and in order, and the number it answers tells how many of the first bytes of its data were put in; a non-blocking read or write, and a readiness check, answers without waiting for another thread; and a reader and a writer never wait for each other for ever.", "quantifier": "all capacities, all numbers of threads, all data and buffer lists, all interleavings of the steps of read, write and writev on one pipe", "why_tests_cant": "A vectored write is interrupted only if another thread acts between two of its buffers; that a call ends whatever the others do, or never ends, is a statement about all infinite schedules.", "anchors": ["src/interface/pipe.rs: EmulatedPipe.write_vectored_to_pipe, write_to_pipe, read_from_pipe, check_select_read, check_select_write", "src/safeposix/syscalls/fs_calls.rs: writev_syscall, write_syscall, read_syscall"]}
{"id": "C84", "title": "Forking while other threads use the descriptors: the child gets the parent's descriptors and every reference is counted", "statement": "Whatever the other threads of a cage do with its descriptors during a fork, and however many forks run at once: the child gets the descriptors the parent had at some moment of the call; each descriptor the child gets is counted, so that no object is released while a child can still use it; a fork waits for nobody but a thread working on the very descriptor it is copying; and it succeeds.", "quantifier": "all table sizes and contents, all numbers of threads and forks, all interleavings of the steps of fork with open, dup, dup2, close and other uses of descriptors", "why_tests_cant": "What a child inherits depends on where between two slots of the copying loop the other threads act; a test of fork has one thread, and cannot try the schedules.", "anchors": ["src/safeposix/syscalls/sys_calls.rs: fork_syscall", "src/safeposix/cage.rs: Cage.get_filedescriptor", "src/safeposix/syscalls/fs_calls.rs: _close_helper, _dup_helper"]}
{"id": "C85", "title": "The time a caller gives to a waiting call is the time it waits", "statement": "The timeout given to select, poll, epoll_wait, cond_timedwait or sem_timedwait is taken for exactly the time it means, for every value of its fields; one that means nothing (negative, a fraction of more than a second, a missing structure where one is needed) is refused with the documented error; no value brings the program down; and a timed wait on a semaphore neither gives up before the time nor goes on trying after it.", "quantifier": "all values of the 64-bit fields of the structures and of the 64-bit argument words, debug and release builds, all sequences of looks at the semaphore", "why_tests_cant": "The fields are 128 bits wide and the arithmetic is done in 32; a test tries a handful of round values, for which the error can be invisible.", "anchors": ["src/interface/types.rs: duration_fromtimeval, duration_fromtimespec, get_duration_from_millis", "src/interface/misc.rs: RawCondvar.timedwait, RustSemaphore.timedlock", "src/safeposix/dispatcher.rs: dispatcher", "src/safeposix/syscalls/fs_calls.rs: cond_timedwait_syscall, sem_timedwait_syscall"]}
{"id": "C86", "title": "stat and fstat describe exactly the file asked about", "statement": "stat of a path and fstat of a descriptor fill the caller's buffer with the device, number, type, permissions, links, owner, length, device number and times of exactly the file the path leads to or the descriptor is open on; nothing that was in the buffer shows through. The two agree on the same file. Device and number together tell files apart, now and later: equal pairs mean the same file. A call that fails leaves the buffer alone.", "quantifier": "every reachable state, every path, descriptor, process and content of the buffer, and every history of calls between two calls of stat", "why_tests_cant": "Whether two files are ever confused depends on all files and descriptors that a history can produce; what shows through depends on what the buffer held.", "anchors": ["src/safeposix/syscalls/fs_calls.rs: stat_syscall, fstat_syscall, _istat_helper, _istat_helper_chr_file, _stat_alt_helper", "src/interface/types.rs: StatData", "src/safeposix/syscalls/fs_constants.rs: STREAMINODE, PIPEINODE"]}
{"id": "C87", "title": "epoll used by several threads: control calls are atomic, a wait reports what is registered and seen, and nobody waits for ever", "statement": "When several threads of a process use the same epoll descriptors, every epoll_ctl acts at once: the calls in the order in which they return give the answers, and leave the registrations, of a plain map. epoll_wait hands out at most maxevents events, each for a different descriptor that is registered when the call returns, with the stored number and just the events the thread saw when it last looked; a registration is dropped only for a closed descriptor; no call breaks down. A wait without a time limit returns only with an event or an error. A registration made while another thread waits counts for that wait. Every epoll_ctl returns. After fork parent and child have one registration list.", "quantifier": "every number of threads, every schedule of epoll_ctl, epoll_wait, close, creation of descriptors and other calls, every readiness that a look may find", "why_tests_cant": "The answers depend on where the other threads are when a lock is granted; the deadlock and the wait that swallows a registration need particular interleavings.", "anchors": ["src/safeposix/syscalls/net_calls.rs: epoll_ctl_syscall, epoll_wait_syscall, poll_syscall", "src/safeposix/syscalls/fs_calls.rs: _close_helper", "src/safeposix/syscalls/sys_calls.rs: fork_syscall", "src/safeposix/cage.rs: EpollDesc, get_filedescriptor"]}
{"id": "C88", "title": "Whether a call on an internet socket waits is decided by the O_NONBLOCK of its descriptor, and nothing else", "statement": "On a descriptor with O_NONBLOCK, connect, send, recv and accept come back at once, with EAGAIN or EINPROGRESS if there was nothing to be had; on one without, they come back only when done and never with these errors. Only fcntl and ioctl set the flag; what was set holds until it is set again, for all descriptors that dup or fork made of the socket; a call that can go on does go on; and a call of one thread that waits does not keep others from calls that should not wait.", "quantifier": "every number of threads and descriptors, every schedule of socket, dup, close, bind, listen, fcntl, ioctl and the four calls, every moment at which data, room or connections turn up", "why_tests_cant": "The mode is kept twice, in each descriptor and once in the host; which of the two a call goes by, and whether they agree, depends on the whole history of calls on all descriptors of the socket.", "anchors": ["src/interface/comm.rs: Socket::new, recvfrom, recvfrom_nonblocking, accept, nonblock_accept, set_blocking, set_nonblocking", "src/safeposix/syscalls/net_calls.rs: _socket_initializer, force_innersocket, connect_tcp_inet, sendto_syscall, send_syscall, recv_common_inner_tcp, recv_common_inner_udp, accept_inet", "src/safeposix/syscalls/fs_calls.rs: fcntl_syscall, ioctl_syscall"]}
{"id": "C89", "title": "Calls on files never wait for one another for ever", "statement": "Whatever calls on files the threads of all cages make, and in whatever order things happen: as long as a call is in progress, some call can go on; once no new calls are made, all calls in progress return after a bounded number of steps, and no lock is left behind. Nobody ever has a lock that somebody else has for writing.", "quantifier": "every number of threads and cages, every schedule of path calls, descriptor calls, chdir, fchdir, fork and exit on any inodes, every way the inode numbers hash to shards, writers that wait keeping readers out of shards or not", "why_tests_cant": "A hang needs two threads to stop at the right places, and depends on which shard of a hash table with random keys each inode falls into; a test run sees one hash and few schedules, and cannot tell a hang from a slow call.", "anchors": ["src/safeposix/filesystem.rs: metawalkandparent, pathnamefrominodenum, filenamefrominode, log_metadata", "src/safeposix/syscalls/fs_calls.rs: open_syscall, mkdir_syscall, link_syscall, unlink_syscall, rmdir_syscall, rename_syscall, chdir_syscall, fchdir_syscall, read_syscall, write_syscall, ftruncate_syscall, _close_helper", "src/safeposix/syscalls/sys_calls.rs: fork_syscall, exit_syscall", "src/safeposix/cage.rs: get_next_fd, normpath"]}
{"id": "C90", "title": "A signal for a process reaches that process, from its birth to its end, and nobody else", "statement": "A signal sent to a process number goes to a thread of the process that has that number then; SIGALRM goes only to the process that set the timer, over any number of execs, and when the time is up; when a process ends, the process that made it is sent SIGCHLD, once, if it is still there. A timer ends with its process. Sending a signal never takes a timer or the whole program down.", "quantifier": "every history of fork, exec, exit, kill, setitimer, announcements of threads and calls of other threads in any number of processes, with timers running out at any moment, exec and exit being two steps each", "why_tests_cant": "The moments that matter (between fork or exec and the announcement of the first thread, inside exec, after exit with a timer running, a number used again) are short and depend on the schedule of timer threads and of other processes.", "anchors": ["src/safeposix/syscalls/sys_calls.rs: fork_syscall, exec_syscall, exit_syscall, kill_syscall, setitimer_syscall", "src/interface/timer.rs: IntervalTimer", "src/interface/misc.rs: lind_kill_from_id, cagetable_insert, cagetable_remove, cagetable_getref", "src/safeposix/dispatcher.rs: rustposix_thread_init, lindsetthreadkill, dispatcher"]}
{"id": "C91", "title": "Both directions of a connection can be used at once by several threads", "statement": "Over a connected pair of Unix stream sockets, what one side sends the other receives, in order, nothing lost or made up, however many threads use either side; nothing is held beyond the capacity; a blocking send that returns a number has sent all. A thread waiting to receive does not keep others from sending, receiving, polling or closing; a thread waiting for room does not keep others from receiving.", "quantifier": "every number of threads and descriptors (copies by dup or fork) on both sides, every schedule of send, recv, select or poll and close, every content and size, every capacity", "why_tests_cant": "Whether a thread hangs depends on which thread came first and on how full both buffers are; a test that sees no hang in one schedule says nothing of the others.", "anchors": ["src/safeposix/syscalls/net_calls.rs: send_syscall, recv_common, recv_common_inner_tcp, select_readfds", "src/interface/pipe.rs: read_from_pipe, write_to_pipe", "src/safeposix/syscalls/fs_calls.rs: _close_helper", "src/safeposix/cage.rs: create_unix_sockpipes"]}
{"id": "C92", "title": "A directory can be listed while it is being changed, and positions in it gone back to", "statement": "Whatever others create, link, rename or remove in a directory while a program lists it with successive getdents calls, every name that is there all the time is returned exactly once, with its inode number, and nothing is returned that is not there. A program can go back to the start, and to a position that it was told by lseek or by a record.", "quantifier": "every directory, every sequence of getdents with any buffer sizes, lseek calls and changes of the directory in between, every place a new name may take in the table and every moment at which the table is put anew", "why_tests_cant": "Which entries are skipped or repeated depends on hashes, on the size of the table and on when changes fall between two calls; small test directories fit one buffer.", "anchors": ["src/safeposix/syscalls/fs_calls.rs: getdents_syscall, lseek_syscall, unlink_syscall, rename_syscall", "src/safeposix/filesystem.rs: DirectoryInode", "src/interface/types.rs: pack_dirents"]}
{"id": "C93", "title": "A thread that holds a file lock can use the file and give the lock back", "statement": "Whatever other threads wait for the lock, a thread that has locked a file with flock can read, write, seek, stat, duplicate and close its descriptor and unlock it; a call waits only in flock without LOCK_NB, and only while another open of the file has a lock that does not go with the one asked for. Asking again through the same open file succeeds. A process can end while one of its threads waits for a lock.", "quantifier": "every number of threads, processes, descriptors and open files, every schedule of flock, descriptor calls, dup, fork and close", "why_tests_cant": "The hang needs one thread inside flock and another between locking and unlocking; single-threaded tests, or tests with a descriptor per process, do not meet it, and a test cannot tell a hang from a slow call.", "anchors": ["src/safeposix/syscalls/fs_calls.rs: flock_syscall, read_syscall, write_syscall, lseek_syscall, dup_syscall, _close_helper", "src/interface/misc.rs: AdvisoryLock", "src/safeposix/syscalls/sys_calls.rs: fork_syscall, exit_syscall"]}
{"id": "C94", "title": "A semaphore in shared memory is one semaphore for all who share the memory", "statement": "A process-shared semaphore initialised anywhere in a shared memory segment is the same semaphore for every process that has the segment attached, at whatever address, whether it attached the segment before or after: each process uses it at its own address, a post by one is seen by all, destroying it removes it for all, and it stays until it is destroyed. No such call brings the program down. A semaphore that is not process-shared is not shared with a child made by fork.", "quantifier": "every number of processes, segments and semaphores, every address and place in a segment, every history of semaphore calls, shmget, shmat, shmdt, shmctl, fork, exec and exit, in debug and release builds", "why_tests_cant": "The tests put one semaphore at the first byte of one segment that all processes have at one address. The property ranges over all places, addresses and orders of attaching, initialising, destroying and detaching.", "anchors": ["src/safeposix/syscalls/fs_calls.rs: sem_init_syscall, sem_destroy_syscall, shmat_syscall, shmdt_syscall, search_for_addr_in_region, rev_shm_find_addrs_by_shmid", "src/safeposix/shm.rs: ShmSegment", "src/safeposix/syscalls/sys_calls.rs: fork_syscall"]}
{"id": "C95", "title": "A process that exits gives everything back, harms no other process, and its exit ends", "statement": "When exit has returned, the process holds no descriptor and each end of each pipe is counted exactly for the descriptors of the other processes, whatever the other threads of the process were doing: a process that reads a pipe is told end of file once nobody can write any more and the bytes are used up, and never earlier; a writer without readers is told that the pipe is broken. During exit nothing of another process changes. Exit returns, also when other threads of the process wait in read or write.", "quantifier": "every table of descriptors, every number of threads and pipes, every interleaving of read, write, close, dup, pipe, fork and exit by threads of the process with reads, writes, closes and copies by other processes", "why_tests_cant": "Tests exit with one thread, after all other threads have ended. The property ranges over all points of all calls at which another thread can be when exit passes the descriptors one by one.", "anchors": ["src/safeposix/syscalls/sys_calls.rs: exit_syscall", "src/safeposix/syscalls/fs_calls.rs: _close_helper, _close_helper_inner, read_syscall, write_syscall", "src/interface/pipe.rs: EmulatedPipe"]}
{"id": "C96", "title": "A path leads to the same object until a name on it is removed or renamed", "statement": "A path that leads to an object goes on leading to that object, and one that leads nowhere goes on leading nowhere, whatever calls are made by whatever processes, unless one of them is asked to remove, rename or make this path or one above it; stat tells the same inode number. Renaming a directory moves everything below along. A process stays in its working directory: relative paths start at the directory that it entered, whatever becomes of the name of that directory.", "quantifier": "every reachable file system, every path, every history of all modelled calls by any number of processes", "why_tests_cant": "Tests look at the paths that the call under test names. The property is about all the other paths, after any history.", "anchors": ["src/safeposix/filesystem.rs: metawalk, metawalkandparent, remove_from_parent_dir", "src/safeposix/syscalls/fs_calls.rs: open_syscall, mkdir_syscall, mknod_syscall, link_syscall, unlink_syscall, rmdir_syscall, rename_syscall, chdir_syscall", "src/safeposix/filesystem.rs: normpath"]}
{"id": "C97", "title": "A call touches only the memory its caller handed over", "statement": "Whatever raw arguments a call is made with, and whether it succeeds or fails, it reads and writes its caller's memory only in the buffers, structures and strings which the arguments hand over according to the call's prototype, writes only where results may go, and never touches address zero. A call refused for one of its arguments leaves the caller's memory as it was.", "quantifier": "every call number, all argument words, every memory contents and state of the system", "why_tests_cant": "A test can see that a result arrives, not that no byte beside it was read or written. A stray access shows only if the neighbouring memory is looked at, for each call and each choice of lengths.", "anchors": ["src/safeposix/dispatcher.rs: dispatcher, quick_read, quick_write", "src/interface/types.rs: get_cbuf, get_mutcbuf, get_cstr, get_sockaddr, copy_out_sockaddr, get_iovecstruct, get_pollstruct_slice, get_epollevent_slice, get_slice_from_string, duration_fromtimespec, copy_out_intptr, pack_dirents", "src/interface/misc.rs: fillrandom, fillzero, copy_fromrustdeque_sized", "src/safeposix/syscalls/fs_calls.rs: read_syscall, write_syscall, writev_syscall, shmdt_syscall, getdents_syscall"]}
{"id": "C98", "title": "What a directory lists is what stat and open find there", "statement": "When a program has read a directory to its end, a name is among those found, with inode number k, exactly if stat of that name under any path to the directory succeeds, for any process, and stores the number k; the same holds of the dots. No name is found twice and each can be used in a path. A descriptor on the named object gives the same stat.", "quantifier": "every reachable file system, every directory with a path, all buffer sizes, every process and every path to the directory", "why_tests_cant": "find, ls -i, cp -a, rm -r and every backup program combine the two calls. Each call alone may pass its tests while they disagree on some name, depth or history.", "anchors": ["src/safeposix/syscalls/fs_calls.rs: getdents_syscall, stat_syscall, fstat_syscall", "src/safeposix/filesystem.rs: metawalk, normpath", "src/interface/types.rs: pack_dirents"]}
{"id": "C99", "title": "A pipeline carries a file from one process to another exactly", "statement": "When one process copies a file to a pipe block by block until its input ends and then closes the pipe, and another copies the pipe to a file until it gets end of file, then whatever the block sizes, the order of their calls and the calls of other processes in between, the output is at every moment a beginning of the input and at the consumer's end of file it is the whole input; the two never wait for each other, and they can always finish, exactly if nobody else has kept a write end of the pipe.", "quantifier": "every reachable state in which the four descriptors are open, every file, all block sizes, all interleavings of the calls, calls of other processes included", "why_tests_cant": "It is what a shell pipeline does. Every part (read, write, pipe, close, fork counts) may pass its own tests while a boundary in one block size or one order of calls loses, doubles or reorders bytes, ends early or never.", "anchors": ["src/safeposix/syscalls/fs_calls.rs: read_syscall, write_syscall, close_syscall, _read_from_pipe, _write_to_pipe", "src/interface/pipe.rs: write_to_pipe, read_from_pipe, decr_ref"]}
{"id": "C100", "title": "The bits a program finds in its descriptor sets after select are the ready descriptors", "statement": "FD_SET, FD_CLR and FD_ISSET on a descriptor set change and tell exactly the bit of that number, for 0 to 1023, and refuse every other number. select reads the sets at the three addresses and leaves at the first two exactly the bits of requested, open and ready descriptors below nfds, as many as it returns, whatever numbers the host uses for its sockets; on failure it changes nothing, and it never writes anywhere else.", "quantifier": "all 2^1024 contents of each set, all nfds, all addresses (null and equal ones included), all descriptor tables and interleavings, all host descriptor numbers", "why_tests_cant": "The sets are bit arrays reached through pointers and pass through a second numbering. A wrong word, bit, bound or translation shows only with particular descriptor and host numbers.", "anchors": ["src/interface/comm.rs: FdSet, kernel_select", "src/safeposix/net.rs: SelectInetInfo, update_readfds_from_kernel_select", "src/safeposix/syscalls/net_calls.rs: select_syscall, select_readfds, select_writefds"]}
{"id": "C101", "title": "socket and socketpair make exactly what they were asked for", "statement": "For every three numbers given to socket: if they name a domain there is (unix, internet, internet 6), a kind (stream, datagram) with any of the flags SOCK_NONBLOCK and SOCK_CLOEXEC and no other, and the protocol of the kind or 0, then the call gives the lowest free number, open on a new socket of that domain, kind and protocol, with exactly the flags asked for as F_GETFD, F_GETFL and exec see them; otherwise it is EOPNOTSUPP; with no number free it is ENFILE; and no other descriptor changes. socketpair does the same with two numbers, for unix stream sockets, and joins the two sockets to each other and to no other; if it fails, nothing is stored and no descriptor is left behind. The flags last until they are set or the descriptor is closed. SO_TYPE reports the kind.", "quantifier": "all triples of 32-bit numbers, all descriptor tables and histories of socket, socketpair, close, fcntl, exec and other calls that make descriptors", "why_tests_cant": "The tests try a dozen of the 2^96 argument triples and never on a table with fewer than two free numbers, where socketpair returns success with -23 as a descriptor number.", "anchors": ["src/safeposix/syscalls/net_calls.rs: socket_syscall, socketpair_syscall, _socket_initializer, _socket_inserter, mksockhandle", "src/safeposix/cage.rs: get_next_fd", "src/safeposix/syscalls/fs_calls.rs: fcntl_syscall", "src/safeposix/syscalls/sys_calls.rs: exec_syscall"]}
{"id": "C102", "title": "A socket reports the addresses it was given", "statement": "After a successful bind of an internet socket, getsockname on any descriptor of it reports the address asked for and the port asked for (for port 0, a port between 32768 and 60999), and goes on to report it for as long as the socket exists, whatever is called on this or any other socket. After a successful connect, getpeername on any descriptor of the socket reports the address connected to; the descriptor accept returns reports the address accept gave to the program as its peer and the listening socket's address and port as its own. A socket has no peer (ENOTCONN) until it is connected, and what it reports as its peer changes only by connect; the peer of a connection does not change at all. A socket that was never bound reports the unspecified address and port 0. Only numbers that are not open descriptors are EBADF.", "quantifier": "all histories of socket, bind, connect, listen, accept, send, recv, shutdown, dup and close on any number of sockets, with any answers of the host, and all descriptor numbers", "why_tests_cant": "The tests ask once, right after bind or connect, on one socket; that nothing else ever changes the answer, through any descriptor, ranges over all histories and host answers.", "anchors": ["src/safeposix/syscalls/net_calls.rs: getsockname_syscall, getpeername_syscall, bind_syscall, connect_syscall, accept_syscall, _cleanup_socket", "src/safeposix/dispatcher.rs: GETSOCKNAME_SYSCALL, GETPEERNAME_SYSCALL", "src/safeposix/net.rs: SocketHandle, _reserve_localport", "src/interface/comm.rs: GenSockaddr::set_addr"]}
{"id": "C103", "title": "Replacing a file through a rename is all or nothing", "statement": "A program writes the new content of a file under another name in the same directory, in blocks of any size, and then renames it over the name of the old file. At every moment, whatever other processes do that leaves the two files and their names alone, the name leads to a file whose content is either the whole old content or the whole new content, never a mixture, never nothing; processes that have the old file open go on reading the old content. The rename succeeds, the other name is then gone, no other name and no descriptor changes. The program can always finish by itself. After a crash at any moment and a restart the name leads to the old content or the new content; after a clean shutdown and a restart it leads to the new content. The old file is reclaimed when nobody has it open any more.", "quantifier": "all contents, all splittings of the writes into blocks, all interleavings with calls of other processes, all moments of a crash between two calls", "why_tests_cant": "A test renames once, looks before and after, and has no second process in between; that no reader ever sees a part, and that a crash at any point leaves one of the two, ranges over all schedules and crash points.", "anchors": ["src/safeposix/syscalls/fs_calls.rs: rename_syscall, write_syscall, open_syscall", "src/safeposix/filesystem.rs: log_metadata, restore_metadata, remove_domain_sock", "src/safeposix/dispatcher.rs: lindrustfinalize"]}
{"id": "C104", "title": "The tools that list a directory show exactly what is there", "statement": "The tool's tree command prints, for a directory, the path of everything below it: every file and directory exactly once, indented by its depth, each line followed by what is below it, nothing that is not there. Its ls command prints the path of every entry exactly once, with a slash behind directories, or just the path when it is not a directory. On a path that leads nowhere nothing is printed. Directories with any number of entries are shown completely. Afterwards every file, every directory, the stored bytes and all descriptors are as they were.", "quantifier": "all file systems reachable by any sequence of system calls, all directories, any depth, any number of entries", "why_tests_cant": "A test lists one small directory; completeness for directories larger than the buffer, for any nesting, and that nothing is shown twice or left open, ranges over all file systems.", "anchors": ["src/tools/fs_utils.rs: lind_tree, lind_ls", "src/tools/lib_fs_utils.rs: visit_children", "src/safeposix/syscalls/fs_calls.rs: getdents_syscall, open_syscall, close_syscall, stat_syscall"]}
{"id": "C105", "title": "A lock file is held by at most one process", "statement": "Processes that must not work at the same time agree on a name; each creates a file of that name with O_CREAT and O_EXCL, has the lock if that succeeds, and removes the name when it is done. Whatever the processes do in whatever order, and whatever other calls are made that do not make, remove or rename that name or a directory above it, at most one process has the lock; the file exists exactly while somebody has it. While somebody has it everybody else is told EEXIST and nothing changes; when nobody has it the next who tries gets it; whoever has it can give it back. After a crash and a restart the file is there exactly if somebody had the lock.", "quantifier": "all numbers of processes, all ways of naming the file (absolute or relative), all interleavings of their calls with any other calls, all moments of a crash between two calls", "why_tests_cant": "A test has two processes and one order of calls; exclusion must hold for every interleaving and any number of processes.", "anchors": ["src/safeposix/syscalls/fs_calls.rs: open_syscall, unlink_syscall", "src/safeposix/filesystem.rs: metawalk, restore_metadata"]}
{"id": "C106", "title": "The reported limit on open descriptors is the true one", "statement": "Whatever calls were made before, a process that asks for its limit on descriptors is told success and a number L such that: no process ever has a descriptor numbered L or above; a call with valid arguments that makes a descriptor is refused for lack of descriptors exactly if every number below L that it may use is taken; copying a descriptor onto a number from L on is refused; and a process can really have L descriptors open. A limit that was set successfully is the one reported and enforced from then on.", "quantifier": "all histories of calls of all processes, with limits set in between or not; all resource numbers and values", "why_tests_cant": "A test compares the reported number with a constant; that no history passes the limit, and none is refused before it, ranges over all histories.", "anchors": ["src/safeposix/syscalls/sys_calls.rs: getrlimit, setrlimit", "src/safeposix/syscalls/sys_constants.rs: NOFILE_CUR, NOFILE_MAX", "src/safeposix/cage.rs: get_next_fd"]}
{"id": "C107", "title": "A pipe or an open file is within reach only of those who made or opened it and those who inherited it", "statement": "After any history of calls, a process has a descriptor for a pipe only if it made the pipe or descends, by fork and exec, from a process that had been given it; likewise for an open file, which a process has only if its own open returned it or it inherited it. A process that later gets the number of one that exited inherits nothing from it. A call of a process without a descriptor for a pipe leaves the pipe exactly as it is: no byte is taken or added, and no end of file or broken pipe appears on its account.", "quantifier": "all histories of calls by any number of processes, all pipes, all files, aborted calls included", "why_tests_cant": "That no sequence of dup, fcntl, fork, exec, close, exit and reuse of numbers hands a pipe to a stranger is a statement about every history; a test shows one.", "anchors": ["src/safeposix/syscalls/fs_calls.rs: open_syscall, dup_syscall, dup2_syscall, _dup2_helper, fcntl_syscall, pipe2_syscall", "src/safeposix/syscalls/sys_calls.rs: fork_syscall, exec_syscall, exit_syscall"]}
{"id": "C108", "title": "A program starts with exactly the descriptors the shell arranged, and a pipeline is wired as intended in any order", "statement": "A process that makes any list of redirections (duplicating one number onto another, closing a number) ends with exactly the table the list means, number by number: each number is closed, or as it was, or a copy of the original it stands for, which survives exec even when the original does not. Calls of other processes in between change nothing. When a shell makes a pipe, forks two programs and all three then redirect and close in any order, the first program's output is the write end, the second one's input is the read end, everything else in the three tables is as it was in the shell, and no other descriptor for the pipe exists anywhere: the second program is not told of an end of input while the first has its output, and is told of it once the first has closed it.", "quantifier": "all reachable states, all lists of redirections, all interleavings with any calls of any other processes", "why_tests_cant": "One leaked write end makes a pipeline hang for ever. Whether one leaks depends on the order of three processes' calls and on what everyone else does; a test runs one order.", "anchors": ["src/safeposix/syscalls/fs_calls.rs: dup2_syscall, _dup2_helper, close_syscall, _close_helper, pipe2_syscall", "src/safeposix/syscalls/sys_calls.rs: fork_syscall, exec_syscall"]}
{"id": "C109", "title": "The file system tool's commands do what their words say, for any list of arguments", "statement": "Removing a list of files removes exactly the names given that are names of files, whatever the order and however many of the words are wrong; what has another name or is open keeps its bytes and attributes. Making a list of directories makes only paths that were given, as directories anybody may use, keeps everything there was, and makes every one whose holder was there. Removing an empty directory works whatever its own permissions and removes nothing else. A line with the wrong number of arguments is refused and changes nothing.", "quantifier": "all reachable file systems, all lists of words, all contents", "why_tests_cant": "The lists, their orders and the trees they meet are unbounded, and no result of any call is looked at by the tool, so a test of a list of good words says nothing about one with a bad word in it.", "anchors": ["src/tools/fs_utils.rs: main", "src/safeposix/syscalls/fs_calls.rs: unlink_syscall, mkdir_syscall, chmod_syscall, rmdir_syscall"]}
{"id": "C110", "title": "A log written by one process grows only at its end, and whoever follows it gets every byte once and in order", "statement": "One process appends records to a file through one descriptor, others read it as it grows. At every moment the file is what it was followed by the records in the order written, each whole; each write reports that all of it was taken. What a follower has been given is exactly the file from where it started, with no gap or repetition; a read answers with at least one byte while there is one it has not got, and with end of file exactly when it has everything. Opening with O_APPEND is how the writer gets to the end. With two appending writers nothing is lost.", "quantifier": "all reachable states, all records and read sizes, all interleavings of writer, followers and any calls of any other processes that do not change the file", "why_tests_cant": "Whether a follower loses or repeats a byte depends on where its reads fall among the writes and on what everyone else does in between; a test sees a few interleavings.", "anchors": ["src/safeposix/syscalls/fs_calls.rs: open_syscall, write_syscall, read_syscall, ftruncate_syscall"]}
{"id": "C111", "title": "Processes that append to one file under a lock file lose nothing and do not mix their records", "statement": "Any number of processes each have their own descriptor for one file and follow the usual discipline: take the lock by creating an agreed name exclusively, move to the end, write records, remove the name. At every moment the file is what it was followed by all records written, whole and in the order of the writes; each write reports that all of it was taken; the records written under one hold of the lock stay together.", "quantifier": "all reachable states, any number of writers, all records, all interleavings of their calls and of any calls of any other processes that leave the lock's name and the file alone", "why_tests_cant": "The discipline matters exactly in the interleavings that a test does not produce: a writer that tries in vain, one that is overtaken between seek and write.", "anchors": ["src/safeposix/syscalls/fs_calls.rs: open_syscall, lseek_syscall, write_syscall, unlink_syscall"]}
{"id": "C112", "title": "A job handed over under a name is claimed by exactly one worker", "statement": "Posters put complete files under an agreed name with link; workers claim what is there by renaming it to a free name of their own in the same directory. At every moment the jobs claimed so far, in order, followed by the one at the name, are the jobs posted, in order: none is lost, none is claimed twice, none is claimed that was not posted. A worker that tries when a job is there gets it with its content; one that tries when nothing is there, and a poster that tries over a waiting job, get an error and change nothing; a waiting job survives a crash.", "quantifier": "all reachable states, any number of posters and workers in any directories, all interleavings of their calls with any calls of any processes that leave the name alone", "why_tests_cant": "Exactly-once hand-over is a statement about all orders of the calls of several processes; a test sees one order.", "anchors": ["src/safeposix/syscalls/fs_calls.rs: link_syscall, rename_syscall"]}
{"id": "C113", "title": "A file of fixed-size records shared by many processes and threads behaves like a table", "statement": "Processes keep records of one size at fixed places of a file and read and write them with pread and pwrite, each through its own descriptor. Everybody who reads a record gets, whole, the one written last, by whomever; every call is of the whole record; bytes outside the records are never touched. Also when any number of threads call at the same time: what they are told is what a table would tell them that handles one request at a time, each between its call and its answer, and at the end the file holds the records of that table.", "quantifier": "all reachable states, all record sizes and counts, any number of processes and threads, all interleavings of calls with calls of others that do not change the file; all schedules of concurrent pread and pwrite, lock by lock", "why_tests_cant": "Torn or stale records show only in particular schedules of particular overlapping calls; a test runs a few of them.", "anchors": ["src/safeposix/syscalls/fs_calls.rs: pread_syscall, pwrite_syscall", "src/interface/file.rs: readat, writeat"]}
{"id": "C114", "title": "A lock made with mkdir, link or an exclusive open is held by at most one process", "statement": "Processes that must not work at the same time agree on a name. Each tries to make it, with mkdir, with link of another file or with open and O_CREAT|O_EXCL, also different processes in different ways; it has the lock if its call succeeds, and removes the name with rmdir or unlink when it is done. Whatever happens in whatever order, at most one process has the lock and the name exists exactly while somebody has it. While somebody has it every attempt fails and changes nothing, mkdir with EEXIST; when nobody has it mkdir succeeds; who made it with mkdir can remove it with rmdir. After a crash and a restart the name is there exactly if somebody had the lock.", "quantifier": "all numbers of processes, all ways of naming and making the lock, all interleavings of their calls with any other calls that do not make, remove or rename that name or a directory above it, all moments of a crash between two calls", "why_tests_cant": "A test has two processes, one way of making the name and one order of calls.", "anchors": ["src/safeposix/syscalls/fs_calls.rs: mkdir_syscall, link_syscall, open_syscall, rmdir_syscall, unlink_syscall", "src/safeposix/filesystem.rs: metawalkandparent, restore_metadata"]}
{"id": "C115", "title": "Transactions on a shared file of records under a lock are serializable and survive a crash", "statement": "Processes take a lock (by whichever of mkdir, link and exclusive open), read and write records of a shared file and give the lock back. Whatever they do in whatever order, what happened is a sequence of whole transactions, followed by at most one under way; none mixes with another; everybody sees what the transactions before left, and the file holds what the sequence leaves. If each transaction replaces a record by a function of what it read there, no such update is lost. After a crash between two calls the records are those that the transactions left, and the lock is there exactly if one was under way.", "quantifier": "all reachable states, record sizes and counts, numbers of processes, ways of making the lock, all interleavings with calls of others that do not change the file, the lock's name or the descriptors, all moments of a crash between two calls", "why_tests_cant": "A lost update shows only in particular interleavings of two read-modify-write sequences; a test runs a few of them.", "anchors": ["src/safeposix/syscalls/fs_calls.rs: pread_syscall, pwrite_syscall, open_syscall, mkdir_syscall, link_syscall, unlink_syscall, rmdir_syscall", "src/safeposix/filesystem.rs: restore_metadata"]}
{"id": "C116", "title": "A file whose last name was removed is private to those who hold it", "statement": "When a process opens a new file and removes its name, no path ever leads to that file again, whatever any process does; nobody ever gets a descriptor for it but that process, its descendants and the programs they execute; a call of anybody else never changes a byte of it or the descriptors for it, also when a new file is made under the old name; when the last descriptor is closed the file is gone for good; and if the system crashes or is shut down before that, no file made after the restart is that file or shows its bytes.", "quantifier": "all reachable states, all paths, all histories of calls of all processes with forks, execs and exits, all calls of outsiders afterwards", "why_tests_cant": "A test can look for the file under a few names and from a few processes; the claim is about every path, every later history and every process, including those that get a reused process number or reuse the name.", "anchors": ["src/safeposix/syscalls/fs_calls.rs: open_syscall, unlink_syscall, link_syscall, rename_syscall, close_syscall, truncate_syscall, remove_from_parent_dir", "src/safeposix/syscalls/sys_calls.rs: fork_syscall, exec_syscall, exit_syscall", "src/safeposix/filesystem.rs: metawalkandparent"]}
{"id": "C117", "title": "Every name of a file is as good as any other", "statement": "A successful link gives an object one more name. From then on, as long as two paths lead to one object, it makes no difference which of them a call is given: open, truncate, chmod, stat, access, chdir, mkdir, mknod and the first argument of link answer the same and leave the system in the same state, so in a whole history of calls the names can be exchanged for one another without any answer changing. Processes that use different names are told the same. A directory has only one name. Removing one name leaves the others, with the same content and one link less. After a crash exactly the paths that were names of one object are names of one object.", "quantifier": "all reachable states, all pairs of paths to one object, all flags and modes, all histories of calls of all processes, all ways of exchanging names in them, all crash points between calls", "why_tests_cant": "A test compares two names of one file after a few calls; the claim is that no call in any state, and no history, can tell them apart.", "anchors": ["src/safeposix/syscalls/fs_calls.rs: link_syscall, unlink_syscall, open_syscall, truncate_syscall, chmod_syscall, stat_syscall, access_syscall", "src/safeposix/filesystem.rs: metawalk, metawalkandparent, load_fs"]}
