{
 "claims": [
  {
   "property": "C01",
   "status": "proved",
   "theorems": [
    "Verif.Pipe.pipe_fifo",
    "Verif.Pipe.pipe_returns_count",
    "Verif.Pipe.write_appends",
    "Verif.Pipe.writev_appends",
    "Verif.Pipe.read_removes",
    "Verif.Kernel.pipe_fifo_history",
    "Verif.Kernel.moves_taken_unique",
    "Verif.Kernel.fresh_reachable",
    "Verif.Kernel.pipe2_new"
   ],
   "note": "Concurrent pipe model: for every schedule of writers and readers, bytes read ++ bytes buffered = bytes written. The same over every history of calls of all cages in the whole-system model, with descriptors copied and closed in any way."
  },
  {
   "property": "C02",
   "status": "proved",
   "theorems": [
    "Verif.Pipe.pipe_bounded",
    "Verif.Pipe.write_appends",
    "Verif.Pipe.writev_appends",
    "Verif.Pipe.read_removes",
    "Verif.Pipe.pipe_returns_count",
    "Verif.Kernel.pipe_capacity",
    "Verif.Kernel.full_pipe"
   ],
   "note": "Capacity bound for every schedule; exact transfer for one call.  pipe_capacity: in every reachable state of the system every pipe has room for 65536 bytes and holds no more; full_pipe: what a write to a nearly full pipe answers."
  },
  {
   "property": "C03",
   "status": "partial",
   "theorems": [
    "Verif.Pipe.read_eof_iff",
    "Verif.Pipe.write_epipe_iff",
    "Verif.Pipe.pipe_eof_epipe_partial",
    "Verif.Pipe.broken_pipe",
    "Verif.Pipe.drained_then_eof",
    "Verif.Pipe.read_eof_violated",
    "Verif.Pipe.write_count_violated"
   ],
   "note": "Exact for calls run without interleaving; under interleaving the code violates the property (witnesses _violated)."
  },
  {
   "property": "C04",
   "status": "partial",
   "theorems": [
    "Verif.Pipe.select_read_iff",
    "Verif.Pipe.select_write_sound",
    "Verif.Pipe.select_write_complete_partial",
    "Verif.Pipe.select_write_violated",
    "Verif.Pipe.select_write_blocking_violated"
   ],
   "note": "Read readiness exact; write readiness sound for non-blocking, but at exactly 4096 free bytes not reported."
  },
  {
   "property": "C06",
   "status": "partial",
   "theorems": [
    "Verif.AdvLock.flock_mutual_exclusion",
    "Verif.AdvLock.flock_nb_iff",
    "Verif.AdvLock.flock_grant_compatible",
    "Verif.AdvLock.flock_no_lost_wakeup",
    "Verif.AdvLock.flock_nobody_lost",
    "Verif.AdvLock.flock_decode",
    "Verif.AdvLock.flock_one_open",
    "Verif.AdvLock.flock_two_opens_violated",
    "Verif.AdvLock.flock_nb_spurious_violated",
    "Verif.AdvLock.flock_foreign_unlock_violated",
    "Verif.AdvLock.flock_upgrade_deadlock"
   ],
   "note": "Mutual exclusion holds per lock object for every schedule; the code gives each open its own lock object, so two opens of one file do not exclude each other (witness)."
  },
  {
   "property": "C07",
   "status": "proved",
   "theorems": [
    "Verif.Sem.sem_count",
    "Verif.Sem.sem_bounded",
    "Verif.Sem.sem_created_once",
    "Verif.Sem.sem_calls",
    "Verif.Sem.sem_invalid",
    "Verif.Sem.sem_handles"
   ],
   "note": "All histories of all cages sharing semaphores through fork."
  },
  {
   "property": "C30",
   "status": "proved",
   "theorems": [
    "Verif.DevNo.devtuple_makedev",
    "Verif.DevNo.makedev_devtuple",
    "Verif.DevNo.makedev_injective"
   ],
   "note": "BitVec round trip both ways."
  },
  {
   "property": "C45",
   "status": "proved",
   "theorems": [
    "Verif.Dispatch.int_arg_iff",
    "Verif.Dispatch.dispatch_spec",
    "Verif.Dispatch.dispatch_prototypes",
    "Verif.Dispatch.null_address_violated"
   ],
   "note": "Integer argument check for every 64-bit word and every call number."
  },
  {
   "property": "C36",
   "status": "partial",
   "theorems": [
    "Verif.Signal.sigprocmask_spec",
    "Verif.Signal.mask_history",
    "Verif.Signal.mask_inherited",
    "Verif.Signal.kill_spec",
    "Verif.Signal.block_unblock",
    "Verif.Signal.sigprocmask_sends",
    "Verif.Signal.sent_only_when_unblocked",
    "Verif.Signal.never_raised_violated",
    "Verif.Signal.setmask_drops_pending_violated",
    "Verif.Signal.signal64_violated",
    "Verif.Signal.set_algebra",
    "Verif.Signal.unannounced_thread_violated"
   ],
   "note": "Mask algebra proved for every history; pending-signal delivery is violated by the code (witnesses)."
  },
  {
   "property": "C37",
   "status": "proved",
   "theorems": [
    "Verif.Signal.sigaction_reports",
    "Verif.Signal.no_kill_handler",
    "Verif.Signal.sigaction_effect",
    "Verif.Signal.getHandler_spec"
   ],
   "note": "All histories with fork and exec."
  },
  {
   "property": "C52",
   "status": "partial",
   "theorems": [
    "Verif.Timer.timer_legal_partial",
    "Verif.Timer.timer_progress",
    "Verif.Timer.one_shot_once",
    "Verif.Timer.periodic_spacing",
    "Verif.Timer.disarm_silent",
    "Verif.Timer.whole_seconds_unit",
    "Verif.Timer.unit_violated",
    "Verif.Timer.report_violated",
    "Verif.Timer.report_fraction_violated",
    "Verif.Timer.report_partial"
   ],
   "note": "Refines an ideal timer in the unit the code uses; the unit (microseconds taken as nanoseconds) and the reported remaining time are wrong (witnesses)."
  },
  {
   "property": "C17",
   "status": "proved",
   "theorems": [
    "Verif.Path.normpath_spec",
    "Verif.Path.normpath_canonical",
    "Verif.Path.normpath_idempotent",
    "Verif.Path.normpath_relative",
    "Verif.Path.normpath_absolute",
    "Verif.Path.normpath_root_dotdot"
   ],
   "note": "String level, every byte string."
  },
  {
   "property": "C29",
   "status": "partial",
   "theorems": [
    "Verif.Getdents.getdents_within_buffer",
    "Verif.Getdents.getdents_one",
    "Verif.Getdents.getdents_prefix",
    "Verif.Getdents.getdents_complete",
    "Verif.Getdents.getdents_each_once",
    "Verif.Kernel.getdents_step",
    "Verif.Kernel.directory_reads",
    "Verif.Kernel.directory_reads_all",
    "Verif.Kernel.getdents_refuses",
    "Verif.Getdents.getdents_small_buffer_violated",
    "Verif.Getdents.getdents_long_name_violated"
   ],
   "note": "Listing exactly once, buffer bound and record layout proved for every directory and all buffer sizes; names of 60000 bytes or more excluded (16-bit record length wraps, witness); a buffer too small for the next record answers 0 (witness)."
  },
  {
   "property": "C05",
   "status": "partial",
   "theorems": [
    "Verif.Kernel.pipe_refs_partial",
    "Verif.Kernel.pipe_eof_partial",
    "Verif.Kernel.pipe_epipe_partial",
    "Verif.Kernel.pipe2_leak_violated"
   ],
   "note": "Counts equal open ends in every reachable state of the kernel model (33 calls, any history); partial because histories are limited by Tame (dup2 of epoll, rename onto existing, ... excluded) and because pipe2 leaks a descriptor when the table has one free slot (witness)."
  },
  {
   "property": "C08",
   "status": "partial",
   "theorems": [
    "Verif.Kernel.new_fd_lowest_partial",
    "Verif.Kernel.new_fd_enfile_partial",
    "Verif.Kernel.pipe2_fds",
    "Verif.Kernel.dup_zero_violated",
    "Verif.InetSock.new_descriptor",
    "Verif.InetSock.accept_effect",
    "Verif.InetSock.accept_full_violated"
   ],
   "note": "open, dup, F_DUPFD, pipe2, socket, epoll_create; accept on internet sockets; dup(0) returns 0, accept with a full table returns the listening descriptor (witnesses)."
  },
  {
   "property": "C09",
   "status": "partial",
   "theorems": [
    "Verif.Kernel.open_alive",
    "Verif.Kernel.dup_same_partial",
    "Verif.Kernel.dup2_same_partial",
    "Verif.Kernel.dup_unopened",
    "Verif.Kernel.dup_offset_violated",
    "Verif.Kernel.dup2_self_violated",
    "Verif.Kernel.dup2_epoll_violated"
   ],
   "note": "Same object, independence and closing of the target proved; the copy has its own offset (witness), dup2(fd,fd) on a closed fd succeeds (witness), dup2 onto a number with an epoll source destroys it (witness)."
  },
  {
   "property": "C10",
   "status": "partial",
   "theorems": [
    "Verif.Kernel.close_open",
    "Verif.Kernel.close_unopened",
    "Verif.Kernel.close_twice",
    "Verif.Kernel.close_range_violated"
   ],
   "note": "For numbers below 1024; numbers out of range abort (witness)."
  },
  {
   "property": "C11",
   "status": "proved",
   "theorems": [
    "Verif.Kernel.exec_keeps"
   ],
   "note": "Every table, every reachable state."
  },
  {
   "property": "C12",
   "status": "partial",
   "theorems": [
    "Verif.Kernel.fork_copies_partial",
    "Verif.Kernel.fork_succeeds",
    "Verif.Kernel.cage_isolation",
    "Verif.Kernel.fork_offset_violated",
    "Verif.Kernel.fork_streams_violated",
    "Verif.Kernel.fork_cwd_violated"
   ],
   "note": "Child equals parent for every slot open in the parent and every slot above 2; closed standard streams reappear in the child (witness); removed working directory aborts (witness)."
  },
  {
   "property": "C50",
   "status": "proved",
   "theorems": [
    "Verif.Kernel.cage_isolation"
   ],
   "note": "Every call, every state."
  },
  {
   "property": "C20",
   "status": "partial",
   "theorems": [
    "Verif.Kernel.content_step",
    "Verif.Kernel.content_history",
    "Verif.Kernel.read_last_written",
    "Verif.Kernel.read_returns_partial",
    "Verif.Kernel.pread_returns_partial",
    "Verif.Kernel.write_writes",
    "Verif.Kernel.writev_writes",
    "Verif.Kernel.pwrite_writes",
    "Verif.Kernel.read_past_end_violated",
    "Verif.Kernel.read_after_truncate_violated",
    "Verif.Kernel.negative_offset_violated",
    "Verif.Kernel.empty_write_violated",
    "Verif.Kernel.append_violated"
   ],
   "note": "Per call and for whole histories: the content is the fold of the changes made, and pread returns the byte most recently stored; reads beyond the end abort and O_APPEND is not honoured (witnesses)."
  },
  {
   "property": "C21",
   "status": "partial",
   "theorems": [
    "Verif.Kernel.lseek_moves_partial",
    "Verif.Kernel.lseek_directory",
    "Verif.Kernel.lseek_invalid",
    "Verif.Kernel.lseek_pipe",
    "Verif.Kernel.lseek_wrap_violated"
   ],
   "note": "Position set to base plus offset, or EINVAL with nothing changed; the returned number wraps at 2^31 (witness)."
  },
  {
   "property": "C22",
   "status": "proved",
   "theorems": [
    "Verif.Kernel.ftruncate_truncates",
    "Verif.Kernel.truncate_truncates",
    "Verif.Kernel.truncate_negative",
    "Verif.Kernel.ftruncate_negative"
   ],
   "note": "Every reachable state."
  },
  {
   "property": "C23",
   "status": "partial",
   "theorems": [
    "Verif.Kernel.size_is_length",
    "Verif.Kernel.stat_size",
    "Verif.Kernel.fstat_size",
    "Verif.Kernel.read_past_end_violated"
   ],
   "note": "Size equals stored length in every reachable state; I/O beyond the end aborts (witness)."
  },
  {
   "property": "C38",
   "status": "proved",
   "theorems": [
    "Verif.Kernel.read_needs_access",
    "Verif.Kernel.write_needs_access",
    "Verif.Kernel.pipe_needs_access",
    "Verif.Kernel.directory_no_io",
    "Verif.Kernel.directory_no_truncate"
   ],
   "note": "Files, pipes and directories, every state."
  },
  {
   "property": "C39",
   "status": "proved",
   "theorems": [
    "Verif.Kernel.chmod_perm",
    "Verif.Kernel.fchmod_perm",
    "Verif.Kernel.withPerm_bits"
   ],
   "note": "Every reachable state."
  },
  {
   "property": "C57",
   "status": "partial",
   "theorems": [
    "Verif.Kernel.setfd_only_cloexec_partial",
    "Verif.Kernel.setfl_keeps_partial",
    "Verif.Kernel.getfd_getfl",
    "Verif.Kernel.fcntl_invalid",
    "Verif.Kernel.setfl_cloexec_violated",
    "Verif.Kernel.setfd_one_violated"
   ],
   "note": "F_SETFL changes close-on-exec (witness) and F_SETFD tests the wrong argument bit (witness)."
  },
  {
   "property": "C13",
   "status": "partial",
   "theorems": [
    "Verif.Kernel.refs_are_descriptors",
    "Verif.Kernel.exists_iff_named_or_open_partial",
    "Verif.Kernel.rmdir_open_violated",
    "Verif.Kernel.rename_overwrite_violated",
    "Verif.Kernel.failed_unlink_violated"
   ],
   "note": "For files and devices in every reachable state of tame histories; a directory removed while open is never reclaimed (witness), rename onto an existing name and a refused unlink break it (witnesses, excluded by Tame)."
  },
  {
   "property": "C14",
   "status": "partial",
   "theorems": [
    "Verif.Kernel.nlink_is_names",
    "Verif.Kernel.nlink_dir",
    "Verif.Kernel.stat_nlink",
    "Verif.Kernel.failed_unlink_violated",
    "Verif.Kernel.rename_overwrite_violated"
   ],
   "note": "Every reachable state; a refused unlink and rename onto an existing name break it (witnesses, excluded by Tame)."
  },
  {
   "property": "C15",
   "status": "partial",
   "theorems": [
    "Verif.Kernel.rmdir_iff_partial",
    "Verif.Kernel.rmdir_effect",
    "Verif.Kernel.rmdir_own_mode_violated",
    "Verif.Kernel.rmdir_type_bits_violated"
   ],
   "note": "Exact success condition and effect; the condition includes the directory's own write permission and type bits (witnesses)."
  },
  {
   "property": "C18",
   "status": "proved",
   "theorems": [
    "Verif.Kernel.lookup_exact",
    "Verif.Kernel.lookup_parent"
   ],
   "note": "Every path string in every reachable state."
  },
  {
   "property": "C19",
   "status": "partial",
   "theorems": [
    "Verif.Kernel.open_excl_existing",
    "Verif.Kernel.open_creates",
    "Verif.Kernel.open_missing",
    "Verif.Kernel.open_existing",
    "Verif.Kernel.open_async_violated"
   ],
   "note": "Every path and mode; O_ASYNC with a new name is refused (witness)."
  },
  {
   "property": "C24",
   "status": "partial",
   "theorems": [
    "Verif.Kernel.rename_succeeds_partial",
    "Verif.Kernel.rename_effect_partial",
    "Verif.Kernel.rename_over_partial",
    "Verif.Kernel.rename_overwrite_violated",
    "Verif.Kernel.rename_self_violated",
    "Verif.Kernel.rename_errors_violated"
   ],
   "note": "To a free name in the same directory, exact; onto an existing name, exact except for the link counts of the object replaced and of the directory (witness); onto itself, missing source and other directory wrong (witnesses)."
  },
  {
   "property": "C25",
   "status": "partial",
   "theorems": [
    "Verif.Kernel.failed_call_changes_nothing_partial",
    "Verif.Kernel.failed_call_keeps_paths",
    "Verif.Kernel.failed_unlink_violated"
   ],
   "note": "All name space calls leave the whole state unchanged, but unlink refused for the parent's permission lowers the link count (witness)."
  },
  {
   "property": "C46",
   "status": "partial",
   "theorems": [
    "Verif.Kernel.chdir_iff",
    "Verif.Kernel.chdir_getcwd",
    "Verif.Kernel.fchdir_getcwd_partial",
    "Verif.Kernel.fchdir_root_violated",
    "Verif.Kernel.removed_dir_dotdot_violated",
    "Verif.Path.getcwd_buffer"
   ],
   "note": "chdir exact; fchdir exact for directories with a path other than the root, where it does not return (witness); getcwd buffer handling exact."
  },
  {
   "property": "C51",
   "status": "proved",
   "theorems": [
    "Verif.Kernel.unlink_ok",
    "Verif.Kernel.unlink_open_file",
    "Verif.Kernel.close_file"
   ],
   "note": "Every reachable state."
  },
  {
   "property": "C55",
   "status": "partial",
   "theorems": [
    "Verif.Kernel.directories_well_formed",
    "Verif.Kernel.removed_dir_dotdot_violated"
   ],
   "note": "For every directory that has a path; a removed directory that is still open may hold a dangling .. (witness)."
  },
  {
   "property": "C56",
   "status": "proved",
   "theorems": [
    "Verif.Kernel.access_iff",
    "Verif.Kernel.bad_mode_eperm"
   ],
   "note": "Every reachable state, every mode word."
  },
  {
   "property": "C16",
   "status": "partial",
   "theorems": [
    "Verif.Kernel.number_not_reused",
    "Verif.Kernel.created_number_new",
    "Verif.Recovery.number_not_reused_across_partial",
    "Verif.Recovery.second_crash_violated"
   ],
   "note": "Every history without restart with no restriction at all on the calls; with clean restarts and crashes for tame calls, shutdowns without recorded socket paths, and crashes from which the disk restores the memory (every crash of a session that began on a new disk or with a clean restart and empties no file by open). The witness shows that a second crash makes numbers come back."
  },
  {
   "property": "C58",
   "status": "partial",
   "theorems": [
    "Verif.Kernel.aborts_panic",
    "Verif.Kernel.never_panics",
    "Verif.Kernel.link_root_violated",
    "Verif.Kernel.bad_descriptor_violated",
    "Verif.Kernel.read_past_end_violated",
    "Verif.Kernel.negative_offset_violated",
    "Verif.Kernel.fork_cwd_violated",
    "Verif.Kernel.rmdir_type_bits_violated",
    "Verif.Kernel.removed_dir_dotdot_violated",
    "Verif.InetSock.aborts_only",
    "Verif.InetSock.shutdown_unconnected_violated",
    "Verif.InetSock.accept_abort_violated",
    "Verif.InetSock.send_nowhere_violated"
   ],
   "note": "The property is false as stated; the calls that abort are characterised exactly (each listed one aborts, in a reachable state no other does); for internet sockets the only situations in which a call aborts are listed, with witnesses."
  },
  {
   "property": "C31",
   "status": "partial",
   "theorems": [
    "Verif.Ports.exclusive_partial",
    "Verif.Ports.conflict_refused_partial",
    "Verif.Ports.refused_overlap",
    "Verif.Ports.foreign_refused",
    "Verif.Ports.unrecorded_violated",
    "Verif.Ports.join_violated",
    "Verif.Ports.failed_bind_violated"
   ],
   "note": "Proved for every history of calls that respect Clean; the code violates the property without it (a port held for one address is handed out unrecorded for another, a non-sharing caller joins a shared port, closing a socket whose bind failed frees the owner's port): witnesses given."
  },
  {
   "property": "C32",
   "status": "partial",
   "theorems": [
    "Verif.Ports.reserve_granted",
    "Verif.Ports.bind_bound",
    "Verif.Ports.bind_done",
    "Verif.Ports.close_forgets",
    "Verif.Ports.release_partial",
    "Verif.Ports.release_unheld_partial",
    "Verif.Ports.release_reserve_partial",
    "Verif.Ports.release_keeps_partial",
    "Verif.Ports.unrecorded_violated",
    "Verif.Ports.release_all_violated",
    "Verif.Ports.failed_bind_violated",
    "Verif.InetSock.bind_effect",
    "Verif.InetSock.connect_port_leak_violated",
    "Verif.InetSock.steal_port_violated"
   ],
   "note": "Proved for every history of Clean calls; witnesses of the violations outside it."
  },
  {
   "property": "C33",
   "status": "partial",
   "theorems": [
    "Verif.Ports.ephemeral_table",
    "Verif.Ports.ephemeral_partial",
    "Verif.Ports.ephemeral_distinct_partial",
    "Verif.Ports.swap16_inj",
    "Verif.Ports.ephemeral_violated"
   ],
   "note": "ephemeral_table holds for every table and every counter value in the range; the statement about reservations that are held needs Clean histories, because of unrecorded reservations (ephemeral_violated)."
  },
  {
   "property": "C34",
   "status": "partial",
   "theorems": [
    "Verif.Shm.get_answer",
    "Verif.Shm.get_effect",
    "Verif.Shm.nothing_there",
    "Verif.Shm.nattch_partial",
    "Verif.Shm.per_cage_partial",
    "Verif.Shm.table_partial",
    "Verif.Shm.attached_exists_partial",
    "Verif.Shm.shmdt_partial",
    "Verif.Shm.no_panic_partial",
    "Verif.Shm.mmap_violated",
    "Verif.Shm.fork_violated"
   ],
   "note": "For every history in which the host's mmap succeeds and fork/exec use free cage numbers; otherwise the code miscounts (witnesses)."
  },
  {
   "property": "C35",
   "status": "partial",
   "theorems": [
    "Verif.Shm.destroyed_iff_partial",
    "Verif.Shm.rmid_attached_partial",
    "Verif.Shm.key_found",
    "Verif.Shm.shmget_partial",
    "Verif.Shm.excl_new",
    "Verif.Shm.id_not_reused",
    "Verif.Shm.marked_key_found"
   ],
   "note": "id_not_reused allows any later calls; the rest is for every history of clean calls (host mmap succeeds, free cage numbers)."
  },
  {
   "property": "C48",
   "status": "partial",
   "theorems": [
    "Verif.SockOpt.round_trip",
    "Verif.SockOpt.set_get",
    "Verif.SockOpt.set_other",
    "Verif.SockOpt.initially_off_partial",
    "Verif.SockOpt.set_ok",
    "Verif.SockOpt.error_once",
    "Verif.SockOpt.get_answer",
    "Verif.SockOpt.get_facts",
    "Verif.SockOpt.set_answer",
    "Verif.SockOpt.set_refused",
    "Verif.SockOpt.not_a_socket",
    "Verif.SockOpt.cloexec_violated",
    "Verif.SockOpt.bad_option_violated"
   ],
   "note": "For every history of calls on any number of sockets and descriptors: getsockopt of a settable option gives what was last set, setting changes no other option or socket, settable flags start off. Partial because a SOCK_CLOEXEC socket reports SO_SNDLOWAT as on, and option numbers outside 0..31 abort the program (both proved)."
  },
  {
   "property": "C40",
   "status": "partial",
   "theorems": [
    "Verif.UnixSock.fifo_partial",
    "Verif.UnixSock.received_prefix_partial",
    "Verif.UnixSock.one_sender",
    "Verif.UnixSock.one_receiver",
    "Verif.UnixSock.ends_unique",
    "Verif.UnixSock.directions_match",
    "Verif.UnixSock.send_effect",
    "Verif.UnixSock.writev_effect",
    "Verif.UnixSock.recv_exact",
    "Verif.UnixSock.connect_requests",
    "Verif.UnixSock.connect_waits",
    "Verif.UnixSock.accept_names",
    "Verif.UnixSock.accept_links_partial",
    "Verif.UnixSock.socketpair_links",
    "Verif.UnixSock.peek_reconnect_violated",
    "Verif.UnixSock.first_connect_lost_violated",
    "Verif.UnixSock.accept_unlinked_violated",
    "Verif.UnixSock.stream_capacity",
    "Verif.UnixSock.in_flight"
   ],
   "note": "For every history of calls on any number of unix stream sockets in which no socket with peeked bytes is connected again: received so far plus waiting equals sent, and each direction has one sending and one receiving socket. Outside that (reconnect after a peek, a second connect before the accept, the client's name unlinked) the code violates it (witnesses)."
  },
  {
   "property": "C41",
   "status": "proved",
   "theorems": [
    "Verif.UnixSock.recv_exact",
    "Verif.UnixSock.peek_same_result",
    "Verif.UnixSock.peek_changes_no_result",
    "Verif.UnixSock.peek_keeps_streams",
    "Verif.InetSock.recv_returns",
    "Verif.InetSock.peek_then_recv"
   ],
   "note": "Unix and internet stream sockets (on datagram sockets the flag is ignored, see C64). A peek returns what a receive would; the results of any later receives are the same with and without it, in every reachable state."
  },
  {
   "property": "C49",
   "status": "partial",
   "theorems": [
    "Verif.UnixSock.send_needs",
    "Verif.UnixSock.writev_needs",
    "Verif.UnixSock.recv_needs",
    "Verif.UnixSock.accept_needs_partial",
    "Verif.UnixSock.shut_both",
    "Verif.UnixSock.shut_down_stays_partial",
    "Verif.UnixSock.accept_full_violated",
    "Verif.UnixSock.shut_again_violated",
    "Verif.UnixSock.shut_both_differs_violated",
    "Verif.UnixSock.shut_unconnected_violated",
    "Verif.UnixSock.connect_once",
    "Verif.InetSock.bind_effect",
    "Verif.InetSock.waits_only",
    "Verif.InetSock.send_needs",
    "Verif.InetSock.recv_needs",
    "Verif.InetSock.accept_needs",
    "Verif.InetSock.connect_needs",
    "Verif.InetSock.listen_needs",
    "Verif.InetSock.bind_once",
    "Verif.InetSock.state_moves",
    "Verif.InetSock.state_stays_partial",
    "Verif.InetSock.shut_refuses_partial",
    "Verif.InetSock.reopened_violated",
    "Verif.InetSock.shutdown_unconnected_violated"
   ],
   "note": "Unix stream sockets and internet sockets. A third shutdown brings a direction back, SHUT_RDWR also removes the descriptor, accept with a full table succeeds on any socket (witnesses)."
  },
  {
   "property": "C54",
   "status": "partial",
   "theorems": [
    "Verif.UnixSock.bind_succeeds_iff",
    "Verif.UnixSock.bind_effect",
    "Verif.UnixSock.bind_existing_partial",
    "Verif.UnixSock.bind_failed_fs",
    "Verif.UnixSock.bind_twice",
    "Verif.UnixSock.connect_needs_name",
    "Verif.UnixSock.connect_names",
    "Verif.UnixSock.names_read_only",
    "Verif.UnixSock.bound_once_for_all",
    "Verif.UnixSock.tree_step",
    "Verif.UnixSock.failed_bind_violated",
    "Verif.UnixSock.bind_mode",
    "Verif.UnixSock.genPath_inj",
    "Verif.UnixSock.numbers_grow",
    "Verif.UnixSock.given_name",
    "Verif.UnixSock.pair_names"
   ],
   "note": "Exact success condition and effect, EADDRINUSE without any change to files, bound address reported through every later history; but a failed bind leaves the socket with the address (witness)."
  },
  {
   "property": "C42",
   "status": "partial",
   "theorems": [
    "Verif.Select.select_count",
    "Verif.Select.select_bits",
    "Verif.Select.select_failed",
    "Verif.Select.select_ebadf",
    "Verif.Select.select_closed_partial",
    "Verif.Select.select_zero",
    "Verif.Select.select_not_zero",
    "Verif.Select.can_read_pipe",
    "Verif.Select.can_write_pipe",
    "Verif.Select.can_read_unix",
    "Verif.Select.select_last_violated",
    "Verif.Select.select_dup_violated",
    "Verif.Select.select_host_failure_violated",
    "Verif.Select.select_write_hangs_violated",
    "Verif.Select.select_unbound_violated",
    "Verif.Select.select_after_peek_violated",
    "Verif.Select.select_half_violated"
   ],
   "note": "For every descriptor table, every interleaving (each pass sees arbitrary states) and any sets: count, bits, EBADF only if closed, 0 only after the timeout with nothing seen ready. EBADF for a closed descriptor needs that no requested descriptor makes the call abort, hang or fail otherwise; the witnesses show these states, nfds = 1024, duplicated host descriptors, and data that can be received but is not reported."
  },
  {
   "property": "C43",
   "status": "partial",
   "theorems": [
    "Verif.Select.poll_count",
    "Verif.Select.poll_entries",
    "Verif.Select.poll_honest",
    "Verif.Select.poll_zero",
    "Verif.Select.poll_closed_partial",
    "Verif.Select.poll_pri_violated",
    "Verif.Select.poll_closed_silent_violated",
    "Verif.Select.poll_large_violated"
   ],
   "note": "For every array of entries and every interleaving. NVAL is proved for closed descriptors below 1023 whose entry asks for something; the witnesses show a closed descriptor without NVAL, urgent data reported without any, and failure or abort for descriptors from 1023 on."
  },
  {
   "property": "C44",
   "status": "partial",
   "theorems": [
    "Verif.Select.ctl_spec",
    "Verif.Select.ctl_history",
    "Verif.Select.wait_events",
    "Verif.Select.wait_reused_violated",
    "Verif.Select.wait_self_violated"
   ],
   "note": "Control calls refine the partial map over every history; a wait hands out at most maxevents events for registered open descriptors with only requested bits. Witnesses: a registration outlives its descriptor when the number is used again; an epoll descriptor registered with itself that way hangs."
  },
  {
   "property": "C27",
   "status": "proved",
   "theorems": [
    "Verif.LogFile.load_run",
    "Verif.LogFile.torn_append",
    "Verif.LogFile.append_keeps",
    "Verif.LogFile.garbage_refused",
    "Verif.LogFile.wrong_shape_refused",
    "Verif.LogFile.whole_run",
    "Verif.LogFile.torn_count_violated",
    "Verif.LogFile.append_large_violated"
   ],
   "note": "For every sequence of entries and every point at which an append can be interrupted, including every byte of the copy: loading gives the entries before it or those and the new one. The aligned 8-byte store of the record count is one step (death of the process); torn_count_violated shows what is lost if the machine tears it. CBOR is modelled from its specification; entry fields are machine words. append_large_violated: an entry larger than the room left and one more megabyte aborts."
  },
  {
   "property": "C26",
   "status": "partial",
   "theorems": [
    "Verif.Recovery.crash_paths_partial",
    "Verif.Recovery.crash_over_partial",
    "Verif.Recovery.crash_stat_partial",
    "Verif.Recovery.crash_reclaims_partial",
    "Verif.Recovery.crash_invents_nothing",
    "Verif.Recovery.crash_size_violated",
    "Verif.Recovery.crash_reclaim_violated"
   ],
   "note": "For every tame history of a session (from a new disk or a clean restart) and a crash between any two calls: all paths, kinds, modes, link counts, entries and contents come back; sizes of all files but those emptied by open with O_TRUNC (witness). Unnamed files and devices are reclaimed; a removed directory that was open is not (witness). A crash right after a rename onto an existing name: all paths come back too. Not covered: histories that go on after calls that are not tame (rename onto an existing name, unlink in a directory without write permission) and unix sockets; sessions that began with a recovery are in C28."
  },
  {
   "property": "C28",
   "status": "partial",
   "theorems": [
    "Verif.Recovery.replay_twice",
    "Verif.Recovery.recover_twice",
    "Verif.Recovery.recovery_crash_partial",
    "Verif.Recovery.shutdown_crash_partial",
    "Verif.Recovery.second_crash_violated",
    "Verif.Recovery.recovery_crash_violated",
    "Verif.Recovery.shutdown_crash_violated"
   ],
   "note": "Replaying or recovering twice is proved for every snapshot and log; crashes in recovery or shutdown are proved harmless while the log and a whole metadata file are both there. The witnesses show the other points: a second crash after recovery loses everything logged before the first, a crash in shutdown can lose the file system or leave one that cannot start."
  },
  {
   "property": "C53",
   "status": "partial",
   "theorems": [
    "Verif.Recovery.restart_paths_partial",
    "Verif.Recovery.restart_stat_partial",
    "Verif.Recovery.sockets_vanish",
    "Verif.Recovery.shutdown_deletes_violated",
    "Verif.Recovery.shutdown_aborts_violated",
    "Verif.FsTools.cleartmp_empties_partial",
    "Verif.FsTools.cleartmp_missing",
    "Verif.FsTools.big_dir_violated"
   ],
   "note": "For every reachable state, also after earlier restarts and crashes, in which no path is recorded as that of a unix socket. The witnesses show that a renamed file is recorded so and deleted at shutdown, and that shutdown can abort. The clearing of /tmp is a program of ordinary calls of cage 0 that runs before the shutdown modelled here; the FsTools theorems say what it does."
  },
  {
   "property": "C47",
   "status": "proved",
   "theorems": [
    "Verif.Handles.refines",
    "Verif.Handles.create_fresh",
    "Verif.Handles.handles_distinct",
    "Verif.Handles.handle_stable",
    "Verif.Handles.handle_dead",
    "Verif.Handles.ebadf_iff",
    "Verif.Handles.wait_ebadf_iff",
    "Verif.Handles.destroyed_is_dead",
    "Verif.Handles.none_live_initially",
    "Verif.Handles.locked_excludes",
    "Verif.Handles.trylock_error_sign_violated"
   ],
   "note": "Both tables of every cage, with fork, exec and exit, over every history of fewer than 2^31 calls from start-up (beyond that an index no longer fits the i32 result). refines relates every call to a specification of which object each handle designates; the other theorems are the clauses. Who waits on a condition variable is not modelled. trylock_error_sign_violated records that pthread errors come back as positive numbers."
  },
  {
   "property": "C59",
   "status": "partial",
   "theorems": [
    "Verif.IpText.parse_exact",
    "Verif.IpText.v4_exact",
    "Verif.IpText.v4_round_trip",
    "Verif.IpText.v4_no_panic",
    "Verif.IpText.v6_full_partial",
    "Verif.IpText.v6_gap_partial",
    "Verif.IpText.v6_no_panic_partial",
    "Verif.IpText.v6_hexadecimal_violated",
    "Verif.IpText.v6_edge_gap_violated",
    "Verif.IpText.v6_short_violated",
    "Verif.IpText.v6_long_violated",
    "Verif.IpText.device_list",
    "Verif.IpText.device_list_blank",
    "Verif.IpText.getifaddrs_exact"
   ],
   "note": "IPv4 text, the device list and getifaddrs are proved in full. The IPv6 reader departs from the standard form: groups are decimal, a leading or trailing :: is rejected, too few groups are accepted and too many abort; the _partial theorems say what it does on the forms it shares with the standard (groups written in decimal digits)."
  },
  {
   "property": "C60",
   "status": "partial",
   "theorems": [
    "Verif.SockAddr.read_exact_partial",
    "Verif.SockAddr.read_errors",
    "Verif.SockAddr.read_local_partial",
    "Verif.SockAddr.write_exact",
    "Verif.SockAddr.write_size",
    "Verif.SockAddr.round_trip_partial",
    "Verif.SockAddr.out2_exact",
    "Verif.SockAddr.out1_exact",
    "Verif.SockAddr.unix_path_round_trip",
    "Verif.SockAddr.read_inet6_violated",
    "Verif.SockAddr.read_local_violated",
    "Verif.SockAddr.round_trip_violated",
    "Verif.SockAddr.unix_path_panic_violated"
   ],
   "note": "Proved for IPv4 in both directions and for Unix addresses of full length; writing is exact for every family. Violated: IPv6 addresses are refused when read (the code expects family 30), a Unix address is read past the declared length, a path that is not UTF-8 aborts. UTF-8 validity is a parameter."
  },
  {
   "property": "C61",
   "status": "partial",
   "theorems": [
    "Verif.FdConc.alloc_exclusive",
    "Verif.FdConc.step_frame",
    "Verif.FdConc.refs_exact_partial",
    "Verif.FdConc.release_once_partial",
    "Verif.FdConc.progress_partial",
    "Verif.FdConc.progress_disciplined_partial",
    "Verif.FdConc.lowest_alone",
    "Verif.FdConc.double_close_violated",
    "Verif.FdConc.close_dup_violated",
    "Verif.FdConc.dup2_overwrites_violated",
    "Verif.FdConc.dup2_deadlock_violated",
    "Verif.FdConc.lowest_violated"
   ],
   "note": "Allocation is exclusive and the table frame holds under every interleaving. Counts and freedom from deadlock hold for disciplined schedules (nobody closes a descriptor another thread is working on; dup2 only onto a descriptor in use); progress also without discipline as long as no dup2 is under way. The _violated theorems are schedules of the code that break the rest: two closes release twice, close and dup, dup2 over a fresh open, dup2 deadlock, open skipping a free number."
  },
  {
   "property": "C62",
   "status": "partial",
   "theorems": [
    "Verif.Kernel.place_exists_unique",
    "Verif.Kernel.empty_path",
    "Verif.Kernel.open_answer",
    "Verif.Kernel.mkdir_answer",
    "Verif.Kernel.mknod_answer",
    "Verif.Kernel.unlink_answer",
    "Verif.Kernel.rmdir_answer",
    "Verif.Kernel.link_answer",
    "Verif.Kernel.rename_answer",
    "Verif.Kernel.chmod_answer",
    "Verif.Kernel.chdir_answer",
    "Verif.Kernel.truncate_answer",
    "Verif.Kernel.mkdir_effect",
    "Verif.Kernel.mknod_effect",
    "Verif.Kernel.link_effect",
    "Verif.Kernel.rename_missing_violated",
    "Verif.Kernel.not_a_directory_violated",
    "Verif.Kernel.link_to_root_violated",
    "Verif.Kernel.open_directory_violated",
    "Verif.Kernel.rename_across_violated"
   ],
   "note": "Exact answer of each call over all reachable states, as tables; the tables differ from POSIX in the cases shown by the _violated theorems (rename of a missing name EEXIST, path through a file ENOENT, link to the root aborts, directory opened for writing, rename across directories)."
  },
  {
   "property": "C63",
   "status": "partial",
   "theorems": [
    "Verif.Kernel.device_read",
    "Verif.Kernel.device_write",
    "Verif.Kernel.device_lseek",
    "Verif.Kernel.standard_streams"
   ],
   "note": "All counts, contents, flags and positions. Reading descriptor 0 is refused with EOPNOTSUPP by the code (standard_streams states it); the bytes of the random devices and the copy to the host terminal are outside the model."
  },
  {
   "property": "C64",
   "status": "partial",
   "theorems": [
    "Verif.InetSock.stream_exact",
    "Verif.InetSock.recv_returns",
    "Verif.InetSock.send_exact",
    "Verif.InetSock.sendto_exact",
    "Verif.InetSock.datagram_received",
    "Verif.InetSock.others_untouched",
    "Verif.InetSock.accept_effect",
    "Verif.InetSock.close_effect",
    "Verif.InetSock.socket_lives",
    "Verif.InetSock.half_shutdown_keeps",
    "Verif.InetSock.second_half_frees",
    "Verif.InetSock.connect_port_leak_violated",
    "Verif.InetSock.connect_retry_violated",
    "Verif.InetSock.accept_port_violated",
    "Verif.InetSock.accept_lost_violated",
    "Verif.InetSock.rebind_violated",
    "Verif.InetSock.datagram_peek_violated",
    "Verif.InetSock.datagram_source_violated",
    "Verif.InetSock.connect_then_send_violated",
    "Verif.InetSock.recv_v6_violated"
   ],
   "note": "Over every history of calls and host answers, one call at a time. The host side (delivery between machines) is an argument of each call. The violations are shown by histories."
  },
  {
   "property": "C65",
   "status": "partial",
   "theorems": [
    "Verif.NameConc.linearizable_partial",
    "Verif.NameConc.rest_sound_partial",
    "Verif.NameConc.stat_counts_violated",
    "Verif.NameConc.solo",
    "Verif.NameConc.store_never_replaces",
    "Verif.NameConc.number_never_again",
    "Verif.NameConc.entries_frame",
    "Verif.NameConc.excl_create_violated",
    "Verif.NameConc.stat_create_violated",
    "Verif.NameConc.double_unlink_violated",
    "Verif.NameConc.unlink_recreate_violated",
    "Verif.NameConc.open_unlink_violated",
    "Verif.NameConc.create_trunc_violated",
    "Verif.NameConc.mkdir_rmdir_violated",
    "Verif.NameConc.rmdir_nonempty_violated",
    "Verif.NameConc.link_unlink_violated",
    "Verif.NameConc.double_rename_violated",
    "Verif.NameConc.stale_log_violated",
    "Verif.NameConc.stale_dir_log_violated"
   ],
   "note": "Small-step model in which each critical section of a call is one step. Proved: an uninterrupted call equals the atomic call of the Fs model; in every schedule inode numbers are never given twice, a stored inode replaces nothing, and an entry changes only under a name that the stepping call has as a last component. Linearizability, for any number of threads and every interleaving of calls that keep apart (a call begins only while no call under way changes a path on its way, nor it theirs): calls and returns are those of a run in which each call happens at one moment, nothing aborts, and at rest file tree, link counts, data and reference counts are those of that run, up to the order of entries. Missing: calls that are not apart, the link count that stat reports meanwhile (shown not to be linearizable), and the log. Violated for calls that name the same or nested paths (eleven schedules with witnesses) and, for the log, for calls in the same directory."
  },
  {
   "property": "C66",
   "status": "partial",
   "theorems": [
    "Verif.FsTools.deltree_exact_partial",
    "Verif.FsTools.deltree_leaf",
    "Verif.FsTools.cleartmp_empties_partial",
    "Verif.FsTools.cleartmp_missing",
    "Verif.FsTools.cleartmp_overfull",
    "Verif.FsTools.deltree_overfull",
    "Verif.FsTools.no_descriptor",
    "Verif.FsTools.odd_mode_violated",
    "Verif.FsTools.no_descriptor_violated",
    "Verif.FsTools.big_dir_violated"
   ],
   "note": "The tools as programs over the calls of the kernel model, for trees of every depth. Proved for trees whose directories each fit one 65536-byte buffer, with truthful type bits, a writable parent, and as many free descriptors as levels. Outside that the property fails, shown in general (cleartmp_overfull, deltree_overfull, no_descriptor) and by reachable states: a directory larger than one buffer keeps entries, a directory made with odd mode bits is left, and the tool aborts without a free descriptor."
  },
  {
   "property": "C67",
   "status": "partial",
   "theorems": [
    "Verif.DataConc.linearizable",
    "Verif.DataConc.one_order",
    "Verif.DataConc.sound_at_rest",
    "Verif.DataConc.shared_descriptor",
    "Verif.DataConc.no_torn_reads",
    "Verif.DataConc.never_stuck",
    "Verif.DataConc.all_return",
    "Verif.DataConc.stale_size_log_violated"
   ],
   "note": "Small-step model: every effect under a lock and every lock operation is one step, with the descriptor and inode locks of the code as reader-writer locks; the log record is taken and appended in two steps. Proved without hypotheses on the calls or the state: every schedule is linearizable to the sequential kernel model, except for the log; the corollaries give the concrete guarantees. Violated: the log, see stale_size_log_violated. Not modelled: reads and writes of pipes and sockets in this model (they have their own), close and dup of the descriptor in use (C61), and path calls at the same time (C65)."
  },
  {
   "property": "C68",
   "status": "partial",
   "theorems": [
    "Verif.Misc.mapping_within_rights",
    "Verif.Misc.mapping_granted",
    "Verif.Misc.anonymous_granted",
    "Verif.Misc.mapping_invalid",
    "Verif.Misc.mapping_refused_kind",
    "Verif.Misc.mapping_refused_rights",
    "Verif.Misc.mapping_returns_partial",
    "Verif.Misc.unmap_range",
    "Verif.Misc.mapping_address_partial",
    "Verif.Misc.mapping_aborts_violated",
    "Verif.Misc.mapping_address_violated",
    "Verif.Misc.mapping_reason_violated",
    "Verif.Misc.unmap_answer_violated"
   ],
   "note": "Safety and the exact answers are proved for every state. Violated: a descriptor number outside the table ends the process; addresses are cut to 32 bits; the reason of the host's refusal is lost; munmap does not answer 0. What the host then does with the mapped memory is not modelled."
  },
  {
   "property": "C69",
   "status": "partial",
   "theorems": [
    "Verif.Misc.fsync_answers_partial",
    "Verif.Misc.sync_range_answers",
    "Verif.Misc.statfs_like_stat",
    "Verif.Misc.fstatfs_answers",
    "Verif.Misc.one_file_system",
    "Verif.Misc.ioctl_nonblocking_partial",
    "Verif.Misc.ioctl_others",
    "Verif.Misc.hostname_partial",
    "Verif.Misc.fsync_readonly_violated",
    "Verif.Misc.control_aborts_violated",
    "Verif.Misc.ioctl_copies_violated",
    "Verif.Misc.hostname_cut_violated",
    "Verif.Misc.longest_name_violated",
    "Verif.Misc.free_exceeds_total_violated"
   ],
   "note": "The exact answers are proved for every reachable state and descriptor number within the table. Violated where named; the witnesses are reachable states."
  },
  {
   "property": "C70",
   "status": "partial",
   "theorems": [
    "Verif.Ident.pid_own",
    "Verif.Ident.ppid_forker",
    "Verif.Ident.ppid_exec",
    "Verif.Ident.user_after_first_partial",
    "Verif.Ident.first_uid_violated",
    "Verif.Ident.orphan_violated",
    "Verif.Ident.exec_number_violated"
   ],
   "note": "Over every history. Violated: the first answer about user and group is -1; an orphan is told the number of its dead parent, which may be another process by then; exec changes the number."
  },
  {
   "property": "C71",
   "status": "partial",
   "theorems": [
    "Verif.Ident.cancel_ends",
    "Verif.Ident.cancel_passes",
    "Verif.Ident.cancel_only_marked",
    "Verif.Ident.registered_returns_partial",
    "Verif.Ident.unregistered_thread_violated"
   ],
   "note": "Over every history of events. Violated: a thread that is not registered ends the whole process at a cancellation point."
  },
  {
   "property": "C72",
   "status": "partial",
   "theorems": [
    "Verif.Power.synced_bytes",
    "Verif.Power.synced_bytes_same",
    "Verif.Power.power_loss_partial",
    "Verif.Power.fsync_lost_violated",
    "Verif.Power.fsync_shorter_violated"
   ],
   "note": "Proved: the bytes of the host file are never older than the fsync; and if the log reached the disk whole, every path and the synced contents are as before. Violated: nothing makes the log reach the disk, so a file for which fsync reported success may be missing or shorter after the power failed."
  },
  {
   "property": "C73",
   "status": "partial",
   "theorems": [
    "Verif.Errnos.numbers_distinct",
    "Verif.Errnos.numbers_linux",
    "Verif.Errnos.answers_linux",
    "Verif.Errnos.answers_distinct",
    "Verif.Errnos.host_error_passes_partial",
    "Verif.Errnos.host_error_never_changed",
    "Verif.Errnos.unknown_host_error_violated"
   ],
   "note": "The table is finite and covered whole; host_error_never_changed is for every number. Violated: the host's ERFKILL and EHWPOISON end the process."
  },
  {
   "property": "C74",
   "status": "partial",
   "theorems": [
    "Verif.Kernel.open_trunc",
    "Verif.Kernel.open_trunc_other",
    "Verif.Kernel.open_failed_same",
    "Verif.Kernel.open_trunc_then_write",
    "Verif.Kernel.trunc_read_aborts_violated",
    "Verif.Kernel.trunc_directory_violated"
   ],
   "note": "Proved for every reachable state: what is emptied, what is kept, and what later writes through other descriptors do. Violated: a later read through a descriptor beyond the new end aborts the program; a directory can be opened for writing and with O_TRUNC, where Linux answers EISDIR."
  },
  {
   "property": "C75",
   "status": "partial",
   "theorems": [
    "Verif.HostCopy.copy_file",
    "Verif.HostCopy.copied_holds",
    "Verif.HostCopy.stopped_harmless",
    "Verif.HostCopy.copy_tree",
    "Verif.HostCopy.update_same",
    "Verif.HostCopy.update_differs",
    "Verif.HostCopy.update_missing",
    "Verif.HostCopy.update_empty",
    "Verif.HostCopy.update_twice",
    "Verif.HostCopy.update_tree",
    "Verif.HostCopy.copy_to_directory_violated",
    "Verif.HostCopy.copy_to_root_violated",
    "Verif.HostCopy.copy_to_device_violated",
    "Verif.HostCopy.copy_empty_directory_violated",
    "Verif.HostCopy.update_empty_violated",
    "Verif.HostCopy.update_special_violated"
   ],
   "note": "For every reachable state and host tree. Partial: copying to a directory, the root or a device, updating an empty file whose directory is missing and updating a tree with a FIFO do not do what the property says (witnesses); empty directories are not copied.."
  },
  {
   "property": "C76",
   "status": "partial",
   "theorems": [
    "Verif.Kernel.fd_answer_partial",
    "Verif.Kernel.deviates",
    "Verif.Kernel.fd_answer_iff",
    "Verif.Kernel.refers_exists_unique",
    "Verif.Kernel.stream_answer_violated",
    "Verif.Kernel.fstat_socket_violated",
    "Verif.Kernel.fchmod_answer_violated",
    "Verif.Kernel.wrong_error_violated",
    "Verif.Kernel.dup_epoll_violated",
    "Verif.Kernel.seek_answer_violated",
    "Verif.Kernel.negative_answer_violated",
    "Verif.Kernel.unknown_device_violated",
    "Verif.Kernel.dup_closed_violated"
   ],
   "note": "fd_answer_partial: the property for every call outside the listed cases of Deviates (and outside reading/writing pipes that are open for it and fchdir of a directory, which C01-C05 and C46 treat). deviates: in each of the listed cases the code's answer is wrong, so the list is exact (fd_answer_iff). The *_violated theorems give reachable witnesses."
  },
  {
   "property": "C77",
   "status": "partial",
   "theorems": [
    "Verif.UnixSock.end_of_stream_partial",
    "Verif.UnixSock.broken_pipe_partial",
    "Verif.UnixSock.close_keeps_others_partial",
    "Verif.UnixSock.peer_hears_partial",
    "Verif.UnixSock.dup_before_connect_violated",
    "Verif.UnixSock.shut_both_silent_violated",
    "Verif.UnixSock.shut_write_silent_violated",
    "Verif.UnixSock.listener_closed_violated",
    "Verif.UnixSock.dup_close_panic_violated"
   ],
   "note": "Exact, for every history in which sockets are connected once, before their descriptor is duplicated, to an address nobody waits at, connections are not shut down in both directions, and accepted names still exist. Outside that the property is false, with a witness for each restriction."
  },
  {
   "property": "C78",
   "status": "partial",
   "theorems": [
    "Verif.Recovery.mid_crash_each_partial",
    "Verif.Recovery.mid_crash_paths_partial",
    "Verif.Recovery.mid_crash_ends_partial",
    "Verif.Recovery.mid_crash_atomic_partial",
    "Verif.Recovery.mid_crash_leave_partial",
    "Verif.Recovery.mid_crash_create_violated",
    "Verif.Recovery.mid_crash_link_violated",
    "Verif.Recovery.mid_crash_unlink_violated",
    "Verif.Recovery.mid_crash_rmdir_violated"
   ],
   "note": "Every call, every number of its records appended: each object is as before or as after the call, and unchanged paths lead to the same object. rename, chmod, write, truncate, close, an open that makes nothing and all other calls with at most one record are done or not done; exec and exit change nothing that has a name. Missing because the code does not do it: mkdir, mknod, an open that makes a file, link, unlink and rmdir append two records, and a crash between the two leaves a name that leads nowhere (any call on it aborts the system), a link count that is too small or too large, or an object for ever without a name; four theorems named violated show it. A record cut short is C27, more than one crash C28."
  },
  {
   "property": "C79",
   "status": "partial",
   "theorems": [
    "Verif.LogConc.recovered_was",
    "Verif.LogConc.recovered_now_partial",
    "Verif.LogConc.recovered_alone_partial",
    "Verif.LogConc.present_logged",
    "Verif.LogConc.stale_size_violated",
    "Verif.LogConc.lost_entry_violated",
    "Verif.LogConc.back_again_violated"
   ],
   "note": "For any number of threads and all interleavings: nothing is made up, the present state of every changed inode is in the log once the calls have returned, and it is the one recovered if no thread changed the inode while another was between serialising and appending it (always so with one thread). Missing because the code does not do it: log_metadata serialises before it takes the lock of the log, so an older record can be appended last; three theorems named violated show a size, a directory entry and a removal undone. Calls are sequences of single changes of inodes here; what they change is not fixed."
  },
  {
   "property": "C80",
   "status": "partial",
   "theorems": [
    "Verif.PortsConc.conc_exclusive_partial",
    "Verif.PortsConc.conc_granted_partial",
    "Verif.PortsConc.conc_inuse_partial",
    "Verif.PortsConc.conc_progress_partial",
    "Verif.PortsConc.conc_search_alone",
    "Verif.PortsConc.conc_undisturbed",
    "Verif.PortsConc.conc_inuse_violated"
   ],
   "note": "Partial because of the same misuses as C31 and C32 (the theorems are about clean calls), and because a search can be refused although at every moment some port is free (conc_inuse_violated). A search that nobody disturbs is proved to be the one-step call of the sequential model."
  },
  {
   "property": "C81",
   "status": "partial",
   "theorems": [
    "Verif.Rendezvous.returned_accepted",
    "Verif.Rendezvous.accepted_returned",
    "Verif.Rendezvous.name_kept",
    "Verif.Rendezvous.next_accept",
    "Verif.Rendezvous.lost_for_ever",
    "Verif.Rendezvous.not_stuck",
    "Verif.Rendezvous.one_accept_partial",
    "Verif.Rendezvous.none_lost_partial",
    "Verif.Rendezvous.paired_partial",
    "Verif.Rendezvous.overwritten_violated",
    "Verif.Rendezvous.removed_violated",
    "Verif.Rendezvous.twice_accepted_violated"
   ],
   "note": "For all interleavings: no connect returns without an accept, no accept without a connect, no wake-up is lost, neither side is stuck, and exactly which waiting connects are lost (those whose entry is no longer in the table). That connections and accepts correspond one to one is proved for runs in which callers take turns at a path; missing because the code does not do it otherwise: a second connect replaces the first, an accept removes an entry that is not the one it took, two accepts take the same entry, and a lost connect blocks unlink for ever (three theorems named violated)."
  },
  {
   "property": "C82",
   "status": "partial",
   "theorems": [
    "Verif.ShmConc.conc_count",
    "Verif.ShmConc.conc_ids",
    "Verif.ShmConc.conc_gone",
    "Verif.ShmConc.conc_get_partial",
    "Verif.ShmConc.conc_attached_partial",
    "Verif.ShmConc.conc_no_panic_partial",
    "Verif.ShmConc.conc_found_partial",
    "Verif.ShmConc.conc_progress_partial",
    "Verif.ShmConc.conc_steps",
    "Verif.ShmConc.attached_violated",
    "Verif.ShmConc.key_lost_violated",
    "Verif.ShmConc.half_made_violated",
    "Verif.ShmConc.deadlock_violated"
   ],
   "note": "For all interleavings: counts are exact, identifiers are used once, removed segments do not come back, a call takes at most three steps. That what is attached exists, that segments are found by their keys, that shmget's identifier is live and that calls do not block one another is proved for runs in which a named pair of calls does not overlap; missing because the code does not do it otherwise: shmat during IPC_RMID attaches a segment that is then removed and its shmdt panics, a second IPC_RMID removes the key of a new segment, shmget returns the identifier of a segment not yet there, and shmat and shmdt of one cage deadlock (four theorems named violated)."
  },
  {
   "property": "C83",
   "status": "partial",
   "theorems": [
    "Verif.PipeConc.writev_stream",
    "Verif.PipeConc.writev_own",
    "Verif.PipeConc.writev_count_partial",
    "Verif.PipeConc.nonblocking_write_ends_partial",
    "Verif.PipeConc.read_ends_partial",
    "Verif.PipeConc.read_write_progress",
    "Verif.PipeConc.writev_mixed_violated",
    "Verif.PipeConc.writev_hole_violated",
    "Verif.PipeConc.nonblocking_waits_violated",
    "Verif.PipeConc.select_read_waits_violated"
   ],
   "note": "For all interleavings: each buffer of a vectored write stays in one piece and a thread's buffers keep their order; the number answered is the number of bytes put in, a blocking call puts in everything; a non-blocking call that has the lock ends within a bound on its own steps; a reader and a writer are never both stuck. Missing because the code does not do it: other bytes come between two buffers, a non-blocking writev can leave a hole in its data, and non-blocking calls and readiness checks wait for the lock that a waiting blocking call keeps (four theorems named violated)."
  },
  {
   "property": "C84",
   "status": "partial",
   "theorems": [
    "Verif.FdFork.fork_slotwise",
    "Verif.FdFork.fork_unchanged",
    "Verif.FdFork.fork_final",
    "Verif.FdFork.fork_counts_partial",
    "Verif.FdFork.fork_no_panic_partial",
    "Verif.FdFork.fork_waits",
    "Verif.FdFork.fork_alone",
    "Verif.FdFork.fork_snapshot_violated",
    "Verif.FdFork.fork_panics_violated"
   ],
   "note": "For all interleavings: each descriptor of the child is what the parent had under that number at some moment, in the order of the numbers; one left alone during the fork is inherited unchanged; the table of a finished child never changes; a fork waits only for a thread that holds the slot; one nobody disturbs ends and copies the table exactly. With disciplined use (see C61) counts equal the descriptors of parent and children. Missing because the code does not do it: the table is not that of any one moment, so that an object open all the time can be missing, and a fork that meets a half-closed descriptor of a deleted file panics (two theorems named violated)."
  },
  {
   "property": "C85",
   "status": "partial",
   "theorems": [
    "Verif.TimeArgs.select_timeout_exact",
    "Verif.TimeArgs.select_timeout_partial",
    "Verif.TimeArgs.select_abort_exact",
    "Verif.TimeArgs.poll_timeout_exact",
    "Verif.TimeArgs.timespec_refused",
    "Verif.TimeArgs.timespec_whole_partial",
    "Verif.TimeArgs.cond_deadline_exact",
    "Verif.TimeArgs.timedlock_spec",
    "Verif.TimeArgs.select_negative_violated",
    "Verif.TimeArgs.select_overflow_violated",
    "Verif.TimeArgs.timespec_fraction_violated",
    "Verif.TimeArgs.timespec_panic_violated",
    "Verif.TimeArgs.sem_deadline_violated"
   ],
   "note": "For all values: the timeout of select is exact if and only if it is not negative and has less than 4294968 microseconds; those of poll and epoll_wait are exact, negative ones wait for ever, others are refused; a timespec is refused exactly when its nanoseconds are out of range, and exact for whole seconds; the semaphore loop is characterised by its looks. Missing because the code does not do it: no timespec with a fraction of a second is ever taken for what it means, five nanoseconds or more panic in a debug build, select accepts negative times and panics or wraps on many microseconds, and sem_timedwait takes a moment for a length (five theorems named violated)."
  },
  {
   "property": "C86",
   "status": "partial",
   "theorems": [
    "Verif.StatBuf.stat_says",
    "Verif.StatBuf.fstat_says",
    "Verif.StatBuf.fstat_is_stat",
    "Verif.StatBuf.same_file_iff",
    "Verif.StatBuf.same_file_later",
    "Verif.StatBuf.buffer_rest_partial",
    "Verif.StatBuf.stat_agrees",
    "Verif.StatBuf.times_violated",
    "Verif.StatBuf.stdin_is_dev_violated",
    "Verif.StatBuf.pipes_same_violated"
   ],
   "note": "In every reachable state stat and fstat of files store every field but the times exactly, agree with each other, tell files apart by device and number, also across any history, and leave the buffer alone on failure. Missing because the code does not do it: the times are never stored (and for devices not the block counts), standard input has the device and number of /dev, and all pipes and epoll objects have one and the same number and the type of a socket (three theorems named violated)."
  },
  {
   "property": "C87",
   "status": "partial",
   "theorems": [
    "Verif.EpollConc.history",
    "Verif.EpollConc.list_still",
    "Verif.EpollConc.early_zero",
    "Verif.EpollConc.held_up",
    "Verif.EpollConc.progress_partial",
    "Verif.EpollConc.zero_without_limit_violated",
    "Verif.EpollConc.add_while_waiting_violated",
    "Verif.EpollConc.ctl_returns_violated",
    "Verif.EpollConc.fork_shares_list_violated"
   ],
   "note": "For every schedule the history of the calls is one the specification allows, the list cannot change under a waiting thread, a wait that returns nothing early has seen a closed descriptor, and if epoll descriptors are never watched themselves some thread can always go on. False of the code (four theorems named violated): a wait without limit returns 0 when a watched descriptor is closed by another thread; epoll_ctl on a list somebody waits on is held up, so that the added descriptor does not count; two epoll_ctl that name each other's descriptor stop for ever; fork copies the list. Not modelled: the fair queue of the locks, and the inner errors of select other than EBADF."
  },
  {
   "property": "C88",
   "status": "partial",
   "theorems": [
    "Verif.BlockMode.receive_keeps",
    "Verif.BlockMode.receive_udp_partial",
    "Verif.BlockMode.no_panic",
    "Verif.BlockMode.ready_returns",
    "Verif.BlockMode.blocking_program",
    "Verif.BlockMode.send_agrees_partial",
    "Verif.BlockMode.flag_own",
    "Verif.BlockMode.connect_again",
    "Verif.BlockMode.recv_undoes_violated",
    "Verif.BlockMode.set_too_early_violated",
    "Verif.BlockMode.cleared_too_early_violated",
    "Verif.BlockMode.accepted_violated",
    "Verif.BlockMode.copies_disagree_violated",
    "Verif.BlockMode.udp_second_violated",
    "Verif.BlockMode.held_up_violated"
   ],
   "note": "For every schedule recv on TCP sockets and accept keep to the flag, no call panics, a call that can go on returns, a program that never asks for O_NONBLOCK never sees EAGAIN or EINPROGRESS, the flag changes only through its descriptor, and send and connect keep to what was last set as long as nobody does a receive that does not wait. False of the code (seven theorems named violated): such a receive or accept sets the host socket back to blocking, so that later sends wait; a flag set before the host socket exists is lost; so is one that is cleared then; sockets from accept are said not to block but do; copies share the host's mode but not the flag; recv on UDP may take a second; and a send that waits holds up every call on the socket. Host errors, shutdown and peeked data are not in this model."
  },
  {
   "property": "C89",
   "status": "partial",
   "theorems": [
    "Verif.Locks.calls_return_partial",
    "Verif.Locks.fchdir_returns_partial",
    "Verif.Locks.fork_returns_partial",
    "Verif.Locks.fair_returns_partial",
    "Verif.Locks.exclusive",
    "Verif.Locks.queued_wants",
    "Verif.Locks.fchdir_hangs_violated",
    "Verif.Locks.fchdir_root_violated",
    "Verif.Locks.fchdirs_hang_violated",
    "Verif.Locks.fork_chdir_violated",
    "Verif.Locks.fork_twice_violated",
    "Verif.Locks.walk_hangs_violated"
   ],
   "note": "For every hash and schedule the calls other than fchdir and fork all return if writers that wait do not keep readers out of a shard; with fchdir they do if the shards can be ranked along the way to the root; with fork if nobody changes a working directory; and with the other kind of shards if walks go up a rank. False of the code in general (six theorems named violated): fchdir to / always hangs and takes every later call by an absolute path with it, fchdir elsewhere does if two shards coincide, two fchdirs may wait for each other, fork and chdir wait for each other, fork waits for a chdir that waits for it, and with the other kind of shards a walk may wait for a writer that waits for it. Sockets, pipes, dup2 and the tables of cages, shared memory and mutexes are not in this model."
  },
  {
   "property": "C90",
   "status": "partial",
   "theorems": [
    "Verif.Life.alarm_own_partial",
    "Verif.Life.child_own_partial",
    "Verif.Life.kill_own_partial",
    "Verif.Life.kill_none",
    "Verif.Life.alarm_sent_partial",
    "Verif.Life.exec_keeps_timer",
    "Verif.Life.fork_no_timer",
    "Verif.Life.child_sent",
    "Verif.Life.no_harm_partial",
    "Verif.Life.newborn_violated",
    "Verif.Life.exec_alarm_violated",
    "Verif.Life.exec_alarm_lost_violated",
    "Verif.Life.child_lost_violated",
    "Verif.Life.exec_threads_violated",
    "Verif.Life.exec_child_violated",
    "Verif.Life.alarm_stranger_violated",
    "Verif.Life.timer_outlives_violated",
    "Verif.Life.set_kill_violated"
   ],
   "note": "For every history in which numbers are not given out twice and threads are noted by their own process, SIGALRM goes to the process of the timer, SIGCHLD to the process that made the one that ended, at most once, and kill to the process with the number; a timer rings when its time is up and lives over exec; if threads are announced right after fork and exec, nothing panics and no signal goes to the thread 0. False of the code in general (nine theorems named violated): before a thread is announced kill signals the thread 0, an alarm kills the timer and makes the next setitimer or exec end the program, and the end of a child ends the program; alarms and ends of children that fall into an exec are lost, as are the latter after an exec to another number; a call of another thread during exec ends the program; timers outlive their processes and then ring at whoever gets the number. Masks and handlers are in Signal, durations in Timer."
  },
  {
   "property": "C91",
   "status": "partial",
   "theorems": [
    "Verif.Duplex.stream",
    "Verif.Duplex.bounded",
    "Verif.Duplex.answers",
    "Verif.Duplex.why",
    "Verif.Duplex.closed_badf",
    "Verif.Duplex.closes",
    "Verif.Duplex.turn_partial",
    "Verif.Duplex.turn_answer",
    "Verif.Duplex.slot_violated",
    "Verif.Duplex.duplex_violated",
    "Verif.Duplex.full_violated"
   ],
   "note": "For every schedule the bytes received on a socket followed by those in its buffer are those sent to it, in order; the buffer stays within its capacity; blocking sends that return a number have sent all, end of file, EPIPE, EAGAIN and readiness are given for their reasons. If every thread has a descriptor of its own and no send has to wait, a waiting call gets its turn within four steps and then its answer. False of the code (three theorems named violated): while a thread waits in recv, no call of another on the same descriptor returns (send, select, non-blocking recv, close, exit) until somebody sends; a request-and-answer program with a sending and a receiving thread on one descriptor never starts; with both buffers full a receive on a copy of the descriptor hangs for ever though data are there. No shutdown, MSG_PEEK, signals or fairness of the locks."
  },
  {
   "property": "C92",
   "status": "partial",
   "theorems": [
    "Verif.DirWalk.present",
    "Verif.DirWalk.once_partial",
    "Verif.DirWalk.all_partial",
    "Verif.DirWalk.rewind",
    "Verif.DirWalk.tell_partial",
    "Verif.DirWalk.rm_violated",
    "Verif.DirWalk.twice_violated",
    "Verif.DirWalk.grow_violated",
    "Verif.DirWalk.seekdir_violated",
    "Verif.DirWalk.tell_violated"
   ],
   "note": "For every history: a call returns only entries that are there at that moment, none twice. A name that is there all the time is returned at most once if nothing is entered before the position, and at least once if nothing is removed before the position (in both cases whatever else is removed or entered, as long as the table is not put anew in the middle). lseek to 0 always works, lseek to a told position does on an unchanged directory. False of the code in general (five theorems named violated): positions count entries, so that a program that lists, removes what it found and lists on misses as many entries as it removed, for every directory and buffer; entering a name before the position makes the last entry come twice; putting the table anew can show one half twice and the other never; the d_off of records is no position; at the end of a directory that has shrunk lseek does not tell the position."
  },
  {
   "property": "C93",
   "status": "partial",
   "theorems": [
    "Verif.FlockConc.exclusive",
    "Verif.FlockConc.granted_iff",
    "Verif.FlockConc.lock_answers",
    "Verif.FlockConc.close_frees",
    "Verif.FlockConc.why",
    "Verif.FlockConc.nb_answers",
    "Verif.FlockConc.closed_badf",
    "Verif.FlockConc.goes_on_partial",
    "Verif.FlockConc.section_partial",
    "Verif.FlockConc.knot_hangs",
    "Verif.FlockConc.use_hangs",
    "Verif.FlockConc.unlock_hangs",
    "Verif.FlockConc.relock_hangs",
    "Verif.FlockConc.close_waits",
    "Verif.FlockConc.use_violated",
    "Verif.FlockConc.close_violated",
    "Verif.FlockConc.unlock_violated",
    "Verif.FlockConc.relock_violated",
    "Verif.FlockConc.exit_violated"
   ],
   "note": "For every schedule: locks taken through whatever descriptors exclude each other per open file, a waiting request can be granted exactly when it goes with all that are held, and a call is held up only behind a thread on the same descriptor. For programs in which nobody else uses a descriptor that a thread waits on with flock, every call but a waiting flock goes on at once, and a thread that has the lock can use the file and unlock it. False of the code in general (five theorems named violated, with general theorems about every state of the kind): flock keeps the slot of the descriptor while it waits, so that the owner of the lock hangs in read, write, lseek, dup or close on that descriptor, and with a third thread queued even in flock(LOCK_UN) or with LOCK_NB; asking again through the same open file hangs; a process with a waiting thread cannot end. That opens of one file exclude each other is false too (C06)."
  },
  {
   "property": "C94",
   "status": "partial",
   "theorems": [
    "Verif.SemShm.same_partial",
    "Verif.SemShm.use_same_partial",
    "Verif.SemShm.post_wait_partial",
    "Verif.SemShm.init_seen_partial",
    "Verif.SemShm.attach_seen_partial",
    "Verif.SemShm.kept_partial",
    "Verif.SemShm.gone_partial",
    "Verif.SemShm.no_abort_partial",
    "Verif.SemShm.middle_aborts",
    "Verif.SemShm.middle_elsewhere",
    "Verif.SemShm.other_address_unseen",
    "Verif.SemShm.stale_attach_aborts",
    "Verif.SemShm.fork_shares",
    "Verif.SemShm.init_refuses",
    "Verif.SemShm.unknown_refused",
    "Verif.SemShm.init_private_partial",
    "Verif.SemShm.private_kept_partial",
    "Verif.SemShm.edge_answers",
    "Verif.SemShm.exec_none",
    "Verif.SemShm.detach_forgets_partial",
    "Verif.SemShm.detach_drops_all",
    "Verif.SemShm.places_kept",
    "Verif.SemShm.middle_violated",
    "Verif.SemShm.middle_release_violated",
    "Verif.SemShm.address_violated",
    "Verif.SemShm.destroyed_violated",
    "Verif.SemShm.detached_violated",
    "Verif.SemShm.private_violated",
    "Verif.SemShm.destroy_violated"
   ],
   "note": "Proved for every history of careful calls, in debug and release builds: semaphores in a segment are process-shared and at its first byte, all processes have the segment at the same addresses when one is initialised or destroyed (they may attach it elsewhere afterwards), and no segment is attached after its semaphore was destroyed or everybody detached it. False of the code otherwise (seven theorems named violated, five general ones): the offset of a semaphore in its segment is computed the wrong way round, which aborts a debug build and in a release build gives the semaphore to the others at a wrong address, where it replaces one of theirs; the caller's addresses are used for all processes; a destroyed semaphore stays recorded, so that the next shmat aborts; it is lost when nobody has the segment attached; and fork shares private semaphores with the child. One call at a time."
  },
  {
   "property": "C95",
   "status": "partial",
   "theorems": [
    "Verif.ExitConc.gives_back_partial",
    "Verif.ExitConc.leak_exact_partial",
    "Verif.ExitConc.others_counted_partial",
    "Verif.ExitConc.no_early_eof_partial",
    "Verif.ExitConc.eof_after_partial",
    "Verif.ExitConc.exit_waits_iff",
    "Verif.ExitConc.exit_nears",
    "Verif.ExitConc.exit_alone",
    "Verif.ExitConc.read_takes",
    "Verif.ExitConc.write_puts",
    "Verif.ExitConc.hang_violated",
    "Verif.ExitConc.leak_violated",
    "Verif.ExitConc.double_violated",
    "Verif.ExitConc.wrap_violated"
   ],
   "note": "Proved for every interleaving in which no thread of the process closes a descriptor during exit and, for the exact counts, none makes one (reading, writing and forking are allowed, and anything in other processes); that nobody is told end of file too early needs only the former. Exit waits exactly while a thread is in read or write of the descriptor that comes next; otherwise it ends after at most two steps per slot and two more. False of the code otherwise (four theorems): exit waits for ever for a reader of a pipe whose write end the process itself holds; a descriptor made by dup behind exit's back is never given back, so that the reader at the other end waits for ever; a close concurrent with exit gives the end back twice, so that a reader is told end of file while another process can write, or the counter wraps and the reader waits for ever. Pipes only; threads are not cancelled."
  },
  {
   "property": "C96",
   "status": "partial",
   "theorems": [
    "Verif.Kernel.names_kept_partial",
    "Verif.Kernel.names_made_partial",
    "Verif.Kernel.names_kept_run_partial",
    "Verif.Kernel.names_made_run_partial",
    "Verif.Kernel.stat_kept_partial",
    "Verif.Kernel.enoent_kept_partial",
    "Verif.Kernel.rename_below_partial",
    "Verif.Kernel.cwd_renamed_violated",
    "Verif.Kernel.cwd_replaced_violated",
    "Verif.Kernel.cwd_removed_violated"
   ],
   "note": "Proved for every call and every history of calls, except rename to a name in use and unlink from a directory that may not be changed (these leave wrong entries: C13, C24). The part on the working directory is false of the code (three theorems): it is kept as a path, so renaming the directory makes relative paths fail, and giving the old name to another directory makes them lead into that one."
  },
  {
   "property": "C97",
   "status": "partial",
   "theorems": [
    "Verif.Touch.touches_only_given_partial",
    "Verif.Touch.null_untouched_partial",
    "Verif.Touch.refused_changes_nothing",
    "Verif.Touch.quick_inside",
    "Verif.Touch.address_read_violated",
    "Verif.Touch.family_read_violated",
    "Verif.Touch.negative_count_violated",
    "Verif.Touch.detach_alias_violated",
    "Verif.Touch.null_buffer_violated",
    "Verif.Touch.quick_null_violated"
   ],
   "note": "Proved for every call number and all raw arguments, except socket addresses whose length does not cover them, writev with a negative count or null buffers, shmdt of an address which agrees with an attached one in its low 32 bits only, and null buffers in quick_read and quick_write: there the code goes too far (six theorems)."
  },
  {
   "property": "C98",
   "status": "partial",
   "theorems": [
    "Verif.ListStat.listed_iff_stat_partial",
    "Verif.ListStat.listed_is_open_partial",
    "Verif.ListStat.names_usable_partial",
    "Verif.ListStat.removed_lists_violated"
   ],
   "note": "For every reachable state, directory that a path leads to, process and path. Partial because names of 60000 bytes and more are excluded (C29). A directory that was removed while open still lists its dots (witness)."
  },
  {
   "property": "C99",
   "status": "partial",
   "theorems": [
    "Verif.Pipeline.pipeline_exact_partial",
    "Verif.Pipeline.own_moves_partial",
    "Verif.Pipeline.pipeline_progress_partial",
    "Verif.Pipeline.pipeline_finishes_partial",
    "Verif.Pipeline.pipeline_hangs"
   ],
   "note": "For every reachable state, every interleaving of calls and all block sizes. Partial because each call is one step (at the grain of the pipe's loads and stores end of file can come early, C03), and a producer whose end of the pipe may block writes at most a page at a time: the model of a call that waits in the middle does not resume it."
  },
  {
   "property": "C100",
   "status": "partial",
   "theorems": [
    "Verif.FdBits.set_ops",
    "Verif.FdBits.set_ops_out",
    "Verif.FdBits.set_same",
    "Verif.FdBits.select_refines",
    "Verif.FdBits.select_result",
    "Verif.FdBits.select_counts",
    "Verif.FdBits.select_leaves",
    "Verif.FdBits.select_except_violated"
   ],
   "note": "For all set contents, addresses, tables and interleavings. select_refines says that the call on memory is the call on sets of C42. Partial because sets that overlap in part are left out, and in that the exception set is not cleared (witness); what ready means is C42."
  },
  {
   "property": "C101",
   "status": "partial",
   "theorems": [
    "Verif.SockNew.socket_exact",
    "Verif.SockNew.socket_new",
    "Verif.SockNew.socket_refused",
    "Verif.SockNew.socket_full",
    "Verif.SockNew.socket_iff",
    "Verif.SockNew.wants_unique",
    "Verif.SockNew.flags_last",
    "Verif.SockNew.flags_setfd",
    "Verif.SockNew.flags_setfl_partial",
    "Verif.SockNew.setfl_cloexec_violated",
    "Verif.SockNew.socketpair_exact_partial",
    "Verif.SockNew.socketpair_new",
    "Verif.SockNew.socketpair_refused",
    "Verif.SockNew.socketpair_einval_iff",
    "Verif.SockNew.sotype_partial",
    "Verif.SockNew.socketpair_full_violated",
    "Verif.SockNew.socketpair_one_violated",
    "Verif.SockNew.sotype_violated"
   ],
   "note": "Proved for socket in full. socketpair is proved when two numbers are free; with fewer the code returns 0 with -23 as a descriptor number and may leave one descriptor open (violated). SO_TYPE includes the flags (violated)."
  },
  {
   "property": "C102",
   "status": "partial",
   "theorems": [
    "Verif.InetSock.name_ebadf_iff",
    "Verif.InetSock.name_shared",
    "Verif.InetSock.name_new_partial",
    "Verif.InetSock.name_bind",
    "Verif.InetSock.name_stays_partial",
    "Verif.InetSock.peer_connect",
    "Verif.InetSock.peer_accept_partial",
    "Verif.InetSock.peer_stays",
    "Verif.InetSock.peer_fixed_partial",
    "Verif.InetSock.name_unbound_violated",
    "Verif.InetSock.name_connected_violated",
    "Verif.InetSock.name_accept_violated",
    "Verif.InetSock.name_refused_violated",
    "Verif.InetSock.peer_pending_violated",
    "Verif.InetSock.name_shutdown_violated"
   ],
   "note": "Proved: bind, connect, the peer of accept, that peers change only by connect, EBADF. Violated: an unbound version 6 socket aborts, a connected socket that was not bound reports port 0, an accepted one another port than the listening one, a refused bind or a pending connect leaves an address, shutdown of both sides loses it."
  },
  {
   "property": "C103",
   "status": "partial",
   "theorems": [
    "Verif.Replace.replace_atomic_partial",
    "Verif.Replace.replace_prefix_partial",
    "Verif.Replace.replace_swap_partial",
    "Verif.Replace.replace_finishes_partial",
    "Verif.Replace.replace_crash_partial",
    "Verif.Replace.reader_kept",
    "Verif.Replace.replace_shutdown_violated",
    "Verif.Replace.replace_shutdown_aborts_violated",
    "Verif.Replace.replace_leak_violated"
   ],
   "note": "Proved for all contents, block sizes and interleavings with calls that leave the two files and names alone, and for a crash between any two calls of a session. Violated: a clean shutdown deletes the file just saved (or aborts if it is still open), and the old file is never reclaimed. Not covered: two programs that replace the same file at once; a crash during recovery or shutdown (C28)."
  },
  {
   "property": "C104",
   "status": "partial",
   "theorems": [
    "Verif.FsShow.tree_exact_partial",
    "Verif.FsShow.tree_paths",
    "Verif.FsShow.tree_other",
    "Verif.FsShow.ls_exact_partial",
    "Verif.FsShow.ls_other",
    "Verif.FsShow.odd_dir_violated",
    "Verif.FsShow.show_full_violated"
   ],
   "note": "Proved for every reachable file system while no other process runs, for trees in which the type bits of the modes tell directories from files and names are shorter than 60000 bytes, when there are as many free descriptors as levels. Violated: a directory made with other type bits is shown as a file and its content not at all; without a free descriptor the tools abort. Not covered: the messages on standard error."
  },
  {
   "property": "C105",
   "status": "partial",
   "theorems": [
    "Verif.LockFile.lock_exclusive_partial",
    "Verif.LockFile.lock_refused_partial",
    "Verif.LockFile.lock_granted_partial",
    "Verif.LockFile.lock_returned_partial",
    "Verif.LockFile.lock_crash_partial",
    "Verif.LockFile.lock_two_violated"
   ],
   "note": "Proved for any number of processes and all orders of whole calls. Violated when calls overlap: two threads that create the file at the same moment can both succeed. Locks made with mkdir or link are C114. Not covered: a crash during recovery."
  },
  {
   "property": "C106",
   "status": "partial",
   "theorems": [
    "Verif.Rlimit.nofile_true_partial",
    "Verif.Rlimit.nofile_usable",
    "Verif.Rlimit.nofile_reached",
    "Verif.Rlimit.getrlimit_answers",
    "Verif.Rlimit.setrlimit_violated",
    "Verif.Rlimit.nofile_max_violated",
    "Verif.Rlimit.rlimit_numbers_violated"
   ],
   "note": "The reported soft limit is proved true for all histories. Violated: setting a limit reports success and changes nothing, also for values above the hard limit; the hard limit reported (4096) can never be reached; Linux's resource numbers are refused. Not covered by the refusal part: accept, pipe2 and socketpair (pipe2 and its leak are in C05/C08)."
  },
  {
   "property": "C107",
   "status": "partial",
   "theorems": [
    "Verif.Confine.confined",
    "Verif.Confine.confined_init",
    "Verif.Confine.stranger_partial",
    "Verif.Confine.outsider_partial"
   ],
   "note": "Who has a descriptor: proved for every history of the kernel model. That a stranger's call leaves the pipe alone: for reachable states and calls that do not abort. Each call is one step; sockets have no identity in this model."
  },
  {
   "property": "C108",
   "status": "partial",
   "theorems": [
    "Verif.Redirect.redirect_step",
    "Verif.Redirect.redirect_exact_partial",
    "Verif.Redirect.redirect_exec_partial",
    "Verif.Redirect.redirect_confined",
    "Verif.Redirect.forked_partial",
    "Verif.Redirect.wired_partial",
    "Verif.Redirect.wired_waits",
    "Verif.Redirect.wired_ends_partial"
   ],
   "note": "Proved on the kernel model, each call one step, for histories in which no call aborts and no cage is forked or executed onto a living one. Redirections of epoll descriptors are left out (Tame excludes dup2 of them). The pipeline needs 0, 1 and 2 open in the shell: fork gives a child standard streams it did not have (C12)."
  },
  {
   "property": "C109",
   "status": "partial",
   "theorems": [
    "Verif.FsCmd.rm_exact_partial",
    "Verif.FsCmd.mkdir_exact",
    "Verif.FsCmd.rmdir_one_partial",
    "Verif.FsCmd.rmdir_exact_partial",
    "Verif.FsCmd.parse_abort",
    "Verif.FsCmd.parse_exact",
    "Verif.FsCmd.surplus_arguments_violated",
    "Verif.FsCmd.rmdir_failed_violated"
   ],
   "note": "Removal needs the holders to be writable (a refused unlink spoils a count, C25), and removing a directory needs its type bits. Two disagreements: surplus arguments of `format` and `tree` are ignored, and what `rmdir` fails to remove is left open to everybody."
  },
  {
   "property": "C110",
   "status": "partial",
   "theorems": [
    "Verif.Follow.follow_exact_partial",
    "Verif.Follow.follow_written_partial",
    "Verif.Follow.follow_caught_up_partial",
    "Verif.Follow.append_open",
    "Verif.Follow.follow_threads",
    "Verif.Follow.two_writers_violated",
    "Verif.Follow.emptied_log_violated",
    "Verif.Follow.emptied_append_violated",
    "Verif.LogCrash.follow_crash_partial"
   ],
   "note": "Proved for one writer on the kernel model, each call one step, for histories in which no call aborts; follow_threads proves it for every schedule of threads that write through the writer's descriptor and a thread that follows, lock by lock. Violated with two writers: O_APPEND only sets the position at open, so that one overwrites the other; and when the log is emptied a follower's read aborts and the writer leaves a hole."
  },
  {
   "property": "C111",
   "status": "partial",
   "theorems": [
    "Verif.LockedAppend.locked_append_partial",
    "Verif.LockedAppend.locked_written_partial",
    "Verif.LockedAppend.locked_together_partial",
    "Verif.LogCrash.locked_append_crash_partial"
   ],
   "note": "Proved on the kernel model with each call one step. Threads that open at the same moment can both get the lock (C105, lock_two_violated), and then records can be lost. Writing is through write; the lock's directory must be writable when the lock is given back."
  },
  {
   "property": "C112",
   "status": "partial",
   "theorems": [
    "Verif.Mailbox.mail_exact_partial",
    "Verif.Mailbox.mail_once_partial",
    "Verif.Mailbox.mail_claim_partial",
    "Verif.Mailbox.mail_empty_partial",
    "Verif.Mailbox.mail_full_partial",
    "Verif.Mailbox.mail_post_partial",
    "Verif.Mailbox.mail_crash_partial",
    "Verif.Mailbox.claim_two_violated"
   ],
   "note": "Proved on the kernel model with each call one step. Violated for threads that rename at the same moment: both are told that they have the job (claim_two_violated). A worker's own name must be free (C24) and in the same directory, which is the only rename the code supports."
  },
  {
   "property": "C113",
   "status": "partial",
   "theorems": [
    "Verif.Records.records_linearizable",
    "Verif.Records.records_exact_partial",
    "Verif.Records.records_whole_partial",
    "Verif.Records.records_outside_partial",
    "Verif.LogCrash.records_crash_partial"
   ],
   "note": "records_linearizable: every schedule of the small-step model of C67, refined to a table with atomic requests. The other three: histories in which any calls that leave the file alone come in between, each call one step (hence partial); descriptors may move their positions, which pread and pwrite do not use. A record is smaller than 2^31 bytes."
  },
  {
   "property": "C114",
   "status": "partial",
   "theorems": [
    "Verif.AnyLock.any_lock_exclusive_partial",
    "Verif.AnyLock.any_lock_refused_partial",
    "Verif.AnyLock.dir_lock_refused_partial",
    "Verif.AnyLock.dir_lock_granted_partial",
    "Verif.AnyLock.dir_lock_returned_partial",
    "Verif.AnyLock.any_lock_crash_partial",
    "Verif.AnyLock.dir_lock_two_violated"
   ],
   "note": "Proved for any number of processes and all orders of whole calls. Violated when calls overlap: two threads that make the directory at the same moment can both succeed. A removal must not abort (rmdir of a directory without directory type bits does, C15) and unlink needs a writable directory (C25)."
  },
  {
   "property": "C115",
   "status": "partial",
   "theorems": [
    "Verif.Txn.txn_serial_partial",
    "Verif.Txn.no_lost_update_partial",
    "Verif.Txn.txn_crash_partial"
   ],
   "note": "Proved on the kernel model with each call one step. Threads that make the lock at the same moment can both get it (C105, C114), and then updates can be lost. Records are smaller than 2^31 bytes."
  },
  {
   "property": "C116",
   "status": "partial",
   "theorems": [
    "Verif.Scratch.scratch_made",
    "Verif.Scratch.scratch_hidden_partial",
    "Verif.Scratch.scratch_family_partial",
    "Verif.Scratch.scratch_private_partial",
    "Verif.Scratch.scratch_gone_partial",
    "Verif.Scratch.scratch_crash_partial",
    "Verif.Scratch.scratch_shutdown_partial"
   ],
   "note": "For every history of calls none of which aborts; rename to a name in use and unlink from a directory that may not be changed are excluded (C13, C24 show what they break). Each call is one step. A crash is between two calls. After a crash the bytes stay on the host under a number that is never used again: nothing in the code removes them (fsck drops only the inode), and the model does not count host files that no inode designates."
  },
  {
   "property": "C117",
   "status": "partial",
   "theorems": [
    "Verif.Alias.alias_made",
    "Verif.Alias.alias_call",
    "Verif.Alias.alias_directory",
    "Verif.Alias.alias_history_partial",
    "Verif.Alias.alias_told",
    "Verif.Alias.alias_lasts_partial",
    "Verif.Alias.alias_unlink_partial",
    "Verif.Alias.alias_crash_partial"
   ],
   "note": "alias_call, alias_directory, alias_told and alias_made are for every reachable state. The histories are those in which no call aborts and which Tame admits; each call is one step. Left out: the arguments of unlink, rmdir and rename and the new name of link, which mean a name and not the object, statfs, and concurrent calls (C65)."
  }
 ]
}