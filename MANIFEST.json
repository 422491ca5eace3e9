{"claims": [
 {"property": "C01", "status": "proved", "theorems": ["Verif.Props.C01_exclusive", "Verif.Props.C01_same_stream"], "note": "For all executions of the process system (any processes, threads, streams, files), assuming no descriptor is wrapped twice at the same time (WellWrapped) and one thread at a time per stream."},
 {"property": "C02", "status": "partial", "theorems": ["Verif.Props.C02_in_process", "Verif.Props.C02_shared_excludes_writer_partial", "Verif.Props.C02_refuted"], "note": "Proved within one process and, across processes, for histories where no two streams of one process hold or request overlapping shared locks; false otherwise (C02_refuted)."},
 {"property": "C03", "status": "proved", "theorems": ["Verif.Props.C03_grant_iff", "Verif.Props.C03_grant_effect"], "note": ""},
 {"property": "C04", "status": "proved", "theorems": ["Verif.Props.C04_not_reentrant", "Verif.Props.C04_runtimeError"], "note": ""},
 {"property": "C05", "status": "partial", "theorems": ["Verif.Props.C05_native_close_safe", "Verif.Props.C05_exclusive_backed", "Verif.Props.C05_backed_partial", "Verif.Props.C05_shared_refuted", "Verif.Props.C05_open", "Verif.Props.C05_utilities"], "note": "The native close is safe in all executions; exclusive locks stay backed by the kernel in all executions; overlapping shared locks of one process are not (C05_shared_refuted)."},
 {"property": "C06", "status": "proved", "theorems": ["Verif.Props.C06_registry_remove", "Verif.Props.C06_close_effect", "Verif.Props.C06_close_idempotent", "Verif.Props.C06_closed_holds_nothing"], "note": ""},
 {"property": "C07", "status": "partial", "theorems": ["Verif.Props.C07_no_leak_partial", "Verif.Props.C07_unlock_closes", "Verif.Props.C07_close_closes", "Verif.Props.C07_closed_once", "Verif.Props.C07_rollback_refuted", "Verif.Props.C07_fd0_refuted", "Verif.Props.C07_fork_refuted"], "note": "Proved for executions without rollback of a failed lock_file (false there: C07_rollback_refuted), for descriptors other than 0 (C07_fd0_refuted) and for descriptors not inherited through fork (C07_fork_refuted)."},
 {"property": "C08", "status": "partial", "theorems": ["Verif.Props.C08_unlock_exact", "Verif.Props.C08_unlock_unowned_partial", "Verif.Props.C08_unlock_unowned_harmless", "Verif.Props.C08_unlock_unowned_refuted"], "note": "When the file has no registry entry, unlocking an unowned range returns silently instead of raising (C08_unlock_unowned_refuted); harmless for the table."},
 {"property": "C09", "status": "partial", "theorems": ["Verif.Props.C09_no_lost_wakeup_partial", "Verif.Props.C09_unlock_notifies", "Verif.Props.C09_wake_progress", "Verif.Props.C09_refuted"], "note": "Proved for histories in which no stream is closed while it holds a lock; false otherwise because close() does not notify (C09_refuted)."},
 {"property": "C10", "status": "proved", "theorems": ["Verif.Props.C10_no_residue", "Verif.Props.C10_failed_call", "Verif.Props.C10_balanced"], "note": "Registry side, for every execution; C10_balanced is the same for one call under arbitrary registry/kernel answers; what remains in the kernel is C61."},
 {"property": "C11", "status": "proved", "theorems": ["Verif.Props.C11_raised_after_deadline", "Verif.Props.C11_success_returns", "Verif.Props.C11_late_success_returns", "Verif.Props.C11_zero_timeout", "Verif.Props.C11_nan_never_expires"], "note": "timeout=nan is accepted by the checks and never expires (C11_nan_never_expires)."},
 {"property": "C12", "status": "proved", "theorems": ["Verif.Props.C12_enforced", "Verif.Props.C12_no_option", "Verif.Props.C12_own_timeout"], "note": ""},
 {"property": "C13", "status": "proved", "theorems": ["Verif.Props.C13_terminates"], "note": "Bounds are stated without division: sleeps * d < t + d."},
 {"property": "C14", "status": "partial", "theorems": ["Verif.Props.C14_reported_partial", "Verif.Props.C14_refuted"], "note": "Proved for calls with a timeout or an enforced timeout; a blocking call retries a permanent error for ever (C14_refuted)."},
 {"property": "C15", "status": "proved", "theorems": ["Verif.Props.C15_rules", "Verif.Props.C15_rejected_attempts_nothing"], "note": ""},
 {"property": "C16", "status": "proved", "theorems": ["Verif.Props.C16_inherited_registry_is_empty", "Verif.Props.C16_fork", "Verif.Props.C16_others_harmless"], "note": ""},
 {"property": "C17", "status": "partial", "theorems": ["Verif.Props.C17_normal_exit_partial", "Verif.Props.C17_refuted"], "note": "Normal exits release exactly the locked range; exceptional exits release nothing (C17_refuted)."},
 {"property": "C18", "status": "proved", "theorems": ["Verif.Props.C18_resolved", "Verif.Props.C18_released_range", "Verif.Props.C18_zero_is_none"], "note": "Lock starts below 0 are excluded: the kernel refuses them."},
 {"property": "C19", "status": "partial", "theorems": ["Verif.Props.C19_same_range_partial", "Verif.Props.C19_refuted"], "note": "Proved for offsets >= 0; unlock_file rejects the negative relative offsets that lock_file accepts (C19_refuted)."},
 {"property": "C20", "status": "partial", "theorems": ["Verif.Props.C20_unlock", "Verif.Props.C20_unlock_history", "Verif.Props.C20_refuted", "Verif.Props.C20_exit_partial", "Verif.Props.C20_text_unlock", "Verif.Props.C20_text_exit_partial"], "note": "unlock_file: proved for every state and every answer of the system, and over histories. False for the end of the with block (C20_refuted), where it needs a flush first (C20_exit_partial). Text streams: the same for every answer of the system."},
 {"property": "C21", "status": "proved", "theorems": ["Verif.Props.C21_no_stale", "Verif.Props.C21_lock_then_read"], "note": "no stale bytes for every answer of the system; position and content over all histories up to a call that C23 excludes"},
 {"property": "C22", "status": "proved", "theorems": ["Verif.Props.C22_close", "Verif.Props.C22_close_blocking", "Verif.Props.C22_text"], "note": "every buffer content and every schedule of the system; failures of the release of locks are not modelled here. Text streams as well."},
 {"property": "C23", "status": "partial", "theorems": ["Verif.Props.C23_refines_partial", "Verif.Props.C23_one_way", "Verif.Props.C23_refuted", "Verif.Props.C23_seek_refuted"], "note": "Readers and writers: all histories. Streams for both: up to the first truncation below the size or failing seek after a read, for which the claim is false (C23_refuted, C23_seek_refuted). Unix, not append."},
 {"property": "C24", "status": "proved", "theorems": ["Verif.Props.C24_size", "Verif.Props.C24_text"], "note": "every state and every answer of the system. Text streams as well."},
 {"property": "C25", "status": "partial", "theorems": ["Verif.Props.C25_flush_partial", "Verif.Props.C25_refuted"], "note": "false after read-ahead (C25_refuted)"},
 {"property": "C26", "status": "proved", "theorems": ["Verif.Props.C26_append", "Verif.Props.C26_pieces"], "note": "Several append streams on one file, any interleaving of write/read/seek/tell/size: every write appends the announced prefix; the content is the concatenation of the pieces."},
 {"property": "C27", "status": "proved", "theorems": ["Verif.Props.C27_truncate", "Verif.Props.C27_negative", "Verif.Props.C27_not_allowed"], "note": "Unix; includes failing system calls, truncate() without argument, negative sizes and streams that are not writable or seekable."},
 {"property": "C28", "status": "partial", "theorems": ["Verif.Props.C28_truncate_partial", "Verif.Props.C28_refuted", "Verif.Props.C28_short_refuted"], "note": "False of the code when the file is extended by an exact multiple of 8192 bytes (AssertionError, position moved) and when the padding is written short; proved otherwise."},
 {"property": "C29", "status": "proved", "theorems": ["Verif.Props.C29_write", "Verif.Props.C29_read", "Verif.Props.C29_seek"], "note": "Unix raw stream."},
 {"property": "C30", "status": "proved", "theorems": ["Verif.Props.C30_readall", "Verif.Props.C30_nonblocking"], "note": "All schedules of short reads and would-block answers."},
 {"property": "C31", "status": "partial", "theorems": ["Verif.Props.C31_readinto_partial", "Verif.Props.C31_refuted"], "note": "False of the code for would-block (TypeError); proved for blocking streams."},
 {"property": "C32", "status": "proved", "theorems": ["Verif.Props.C32_write_unix", "Verif.Props.C32_write_windows"], "note": "Both backends (windows: files)."},
 {"property": "C33", "status": "partial", "theorems": ["Verif.Props.C33_raw_closed", "Verif.Props.C33_closed_lock", "Verif.Props.C33_buffered_partial", "Verif.Props.C33_close_again", "Verif.Props.C33_buffered_refuted", "Verif.Props.C33_text_partial", "Verif.Props.C33_text_close_again", "Verif.Props.C33_text_refuted", "Verif.Props.C33_sync"], "note": "Raw streams and lock calls: after close() every operation raises ValueError and has no effect. Buffered streams: same, except that read(n), answered from read-ahead, still returns bytes after close() (refuted). Text streams: same, except that tell() inside an iteration raises OSError (refuted). A second close() does nothing."},
 {"property": "C34", "status": "proved", "theorems": ["Verif.Props.C34_constant", "Verif.Props.C34_same_file", "Verif.Props.C34_unix", "Verif.Props.C34_windows", "Verif.Props.C34_file", "Verif.Props.C34_cached", "Verif.Props.C34_closed_refuted"], "note": "All histories of creations, removals, renamings, links, openings and closings by anybody, file numbers chosen by the OS and reused as soon as no name or descriptor refers to the file; unix and windows identities. Condition: nobody closes the descriptor of an open stream behind its back; without it the cached value goes stale (C34_closed_refuted). FAT, where the number of a living file can change, is not modelled."},
 {"property": "C35", "status": "proved", "theorems": ["Verif.Props.C35_accepted", "Verif.Props.C35_order", "Verif.Props.C35_universal"], "note": "exactly the described standard and advanced modes are accepted (any string, any str.lower/upper that is right on ASCII); order irrelevant; the U flag of python < 3.11 is characterised separately"},
 {"property": "C36", "status": "proved", "theorems": ["Verif.Props.C36_equivalent"], "note": "all permutations of each row of the documented table, with each binary/text flag"},
 {"property": "C37", "status": "proved", "theorems": ["Verif.Props.C37_must_create", "Verif.Props.C37_must_exist", "Verif.Props.C37_frame", "Verif.Props.C37_refusal", "Verif.Props.C37_default", "Verif.Props.C37_default_files"], "note": "every filesystem state and failure schedule"},
 {"property": "C38", "status": "proved", "theorems": ["Verif.Props.C38_order", "Verif.Props.C38_locked"], "note": "event log: every truncation is preceded by the lock of the same file"},
 {"property": "C39", "status": "partial", "theorems": ["Verif.Props.C39_partial", "Verif.Props.C39_no_opener_partial", "Verif.Props.C39_refuted"], "note": "false for text mode with buffering=0 (rejected after the file was erased) and openers run before the rejection; proved for the rest"},
 {"property": "C40", "status": "partial", "theorems": ["Verif.Props.C40_partial", "Verif.Props.C40_fileio_partial", "Verif.Props.C40_refuted", "Verif.Props.C40_fileio_refuted"], "note": "false for descriptor 0 and for FileIO(fd, 'w') after patching; proved for every other descriptor / mode"},
 {"property": "C41", "status": "partial", "theorems": ["Verif.Props.C41_partial", "Verif.Props.C41_refuted", "Verif.Props.C41_zero_refuted"], "note": "false when the path is a directory, when the new descriptor is 0 (close() asserts that it is not) or when a system call right after open fails; proved otherwise"},
 {"property": "C42", "status": "partial", "theorems": ["Verif.Props.C42_needs_write", "Verif.Props.C42_rejected", "Verif.Props.C42_rejected_no_opener", "Verif.Props.C42_opener_refuted"], "note": "with an opener, the opener is called before the rejection (refuted); proved otherwise"},
 {"property": "C43", "status": "proved", "theorems": ["Verif.Props.C43_inheritable", "Verif.Props.C43_mutex"], "note": "all modes and platforms"},
 {"property": "C44", "status": "proved", "theorems": ["Verif.Props.C44_bare", "Verif.Props.C44_kind", "Verif.Props.C44_size", "Verif.Props.C44_text", "Verif.Props.C44_no_unbuffered_text", "Verif.Props.C43_mutex"], "note": "all arguments"},
 {"property": "C45", "status": "partial", "theorems": ["Verif.Props.C45_write", "Verif.Props.C45_read", "Verif.Props.C45_round_trip", "Verif.Props.C45_read_returns", "Verif.Props.C45_prefix", "Verif.Props.C46_returns", "Verif.Props.C45_zero_refuted"], "note": "Written bytes are the content, for any answers of the system; reading with any buffering gives the content, or the error the system reported; both return if system calls succeed; whatever the answers, what is read is the beginning of the file. False if the file gets descriptor 0: then close() fails (C45_zero_refuted)."},
 {"property": "C46", "status": "partial", "theorems": ["Verif.Props.C46_partial", "Verif.Props.C46_returns", "Verif.Props.C46_refuted"], "note": "Proved for every buffering but 0, and for buffering=0 if the system takes all bytes at once; refuted for buffering=0 with a short write."},
 {"property": "C47", "status": "partial", "theorems": ["Verif.Props.C47_partial", "Verif.Props.Appended.bytes", "Verif.Props.C47_must_not_create", "Verif.Props.C47_returns", "Verif.Props.C47_refuted"], "note": "Proved for all sequences of calls and answers of the system, except calls with buffering=0 that meet a short write (refuted)."},
 {"property": "C48", "status": "partial", "theorems": ["Verif.Props.C48_sync_partial", "Verif.Props.C48_history_partial", "Verif.Props.C48_completes", "Verif.Props.C48_later", "Verif.Props.C48_write", "Verif.Props.C48_append", "Verif.Props.C48_refuted", "Verif.Props.C48_text_partial"], "note": "Any history, any answers of the system; holds unless the system reported a write error to fdatasync or F_FULLFSYNC, which sync() swallows (C48_refuted). Text streams after any history, with the same restriction."},
 {"property": "C49", "status": "partial", "theorems": ["Verif.Props.C49_round_trip", "Verif.Props.lossless_iff", "Verif.Props.C49_read", "Verif.Props.C49_read_returns", "Verif.Props.C49_codecs", "Verif.Props.C49_zero_refuted"], "note": "For every codec that decodes what it encodes; latin-1, utf-8 and utf-16 do. False if the file gets descriptor 0: then close() fails (C49_zero_refuted)."},
 {"property": "C50", "status": "partial", "theorems": ["Verif.Props.C50_no_lock", "Verif.Props.C50_no_wrapper", "Verif.Props.C50_same_partial", "Verif.Props.C50_positional_refuted", "Verif.Props.C50_timeout", "Verif.Props.C50_types"], "note": "no lock and no wrapper proved for all argument lists; 'behaves as rsopen' is false for more than 7 positional arguments and the timeout default differs; values of a wrong type are rejected before anything happens"},
 {"property": "C51", "status": "partial", "theorems": ["Verif.Props.C51_refuted", "Verif.Props.C51_partial", "Verif.Props.C51_exclusive", "Verif.Props.C51_later_partial", "Verif.Props.C51_private"], "note": "False of the code: __getattr__ returns the bound method of the stream on the first access to a name (and always for private names), so the first call has no mutex (C51_refuted). Proved for all runs of any number of threads: calls through a stored proxy run while their thread owns the mutex, exclusively; once an access to a public name has returned, no thread looks it up on the stream again."},
 {"property": "C52", "status": "proved", "theorems": ["Verif.Props.C52_serial", "Verif.Props.C52_during", "Verif.Props.C52_free", "Verif.Props.C52_progress", "Verif.Props.C52_direct_refuted"], "note": "All schedules, any number of threads, nested calls through the wrapper, arbitrary wrapped stream: final state and results are those of the calls one after the other in mutex order; during a call likewise for the calls before it; the mutex is free when no protected call is in progress (also after exceptions); the owner can always go on. Calls that bypass the proxies are not serialised: C52_direct_refuted."},
 {"property": "C53", "status": "proved", "theorems": ["Verif.Props.C53_get", "Verif.Props.C53_all_or_nothing"], "note": ""},
 {"property": "C54", "status": "proved", "theorems": ["Verif.Props.C54_captured"], "note": ""},
 {"property": "C55", "status": "proved", "theorems": ["Verif.Props.C55_split", "Verif.Props.C55_join", "Verif.Props.C55_negative", "Verif.Props.C55_injective"], "note": ""},
 {"property": "C56", "status": "proved", "theorems": ["Verif.Props.C56_signed", "Verif.Props.C56_unsigned", "Verif.Props.C56_twos_complement"], "note": ""},
 {"property": "C57", "status": "proved", "theorems": ["Verif.Props.C57_filetime_roundtrip", "Verif.Props.C57_timestamp_roundtrip", "Verif.Props.C57_error_bound", "Verif.Props.C57_float_refuted"], "note": "Exact arithmetic, as stated; with the float arithmetic of python the round trip fails for current dates (C57_float_refuted)."},
 {"property": "C58", "status": "proved", "theorems": ["Verif.Props.C58_finite", "Verif.Props.C58_infinite", "Verif.Props.C58_negative", "Verif.Props.C58_infinite_end", "Verif.Props.C58_large_length_refuted"], "note": "Lengths of 2^64 and above are masked (C58_large_length_refuted), outside of the claim."},
 {"property": "C59", "status": "proved", "theorems": ["Verif.Props.C59_mapping", "Verif.Props.C59_default", "Verif.Props.C59_keys_distinct"], "note": ""},
 {"property": "C60", "status": "partial", "theorems": ["Verif.Props.C60_values", "Verif.Props.C60_letter", "Verif.Props.C60_reopen_partial", "Verif.Props.C60_refuted"], "note": "false for streams opened with 'RC' (read-only, must create): they report 'xb' (C60_refuted); proved for all other streams"},
 {"property": "C61", "status": "partial", "theorems": ["Verif.Props.C61_kernel_locks_held_partial", "Verif.Props.C61_kernel_exact_partial", "Verif.Props.C61_refuted"], "note": "Proved for executions without an asynchronous exception between the grant by the kernel and the return of lock_file (false there: C61_refuted)."},
 {"property": "C62", "status": "proved", "theorems": ["Verif.Props.C62_no_internal_error", "Verif.Props.C62_waiters_counted"], "note": ""},
 {"property": "C63", "status": "proved", "theorems": ["Verif.Props.C63_accounting", "Verif.Props.C63_flushed", "Verif.Props.C63_error_refuted"], "note": "Any history of write/flush on a buffered writer over any pattern of partial and refused writes. C63_error_refuted shows that after other errors of the operating system (outside the claim) the bytes of the failed write stay pending."},
 {"property": "C64", "status": "partial", "theorems": ["Verif.Props.C64_readinto_partial", "Verif.Props.C64_readinto1", "Verif.Props.C64_returns_partial", "Verif.Props.C64_refuted", "Verif.Props.C64_short_refuted"], "note": "Whenever readinto returns the contract holds, readinto1 always returns, and readinto returns if nothing was read since the last movement and reads are answered in full; false in general: _readinto can raise ValueError (refuted by two witnesses)."},
 {"property": "C65", "status": "partial", "theorems": ["Verif.Props.C65_readline", "Verif.Props.C65_readlines", "Verif.Props.C65_readlines_hint", "Verif.Props.C65_writelines", "Verif.Props.C65_size_partial", "Verif.Props.C65_size_refuted"], "note": "readline(), readlines(), readlines(hint), iteration and writelines proved; readline(size) may return more than size bytes (refuted), bound 2*size-1 proved."},
 {"property": "C66", "status": "partial", "theorems": ["Verif.Props.C66_partial", "Verif.Props.C66_refuted"], "note": "false when the new descriptor is 0 and buffering is None or negative (AssertionError); proved otherwise"},
 {"property": "C67", "status": "partial", "theorems": ["Verif.Props.C67_partial", "Verif.Props.C67_refuted", "Verif.Props.C67_zero_refuted"], "note": "Whatever the outcome of read_from_file/write_to_file/append_to_file: no descriptor and no lock left, except a close postponed by other streams' locks. False for directories (descriptor leak, refuted), for descriptor 0 (refuted) and when a system call right after open fails (C41)."},
 {"property": "C68", "status": "partial", "theorems": ["Verif.Props.C68_history_partial", "Verif.Props.C68_reads", "Verif.Props.C68_read_all", "Verif.Props.C68_lines", "Verif.Props.C68_lines_whole", "Verif.Props.C68_refuted"], "note": "All histories that do not write, against a text with a position; latin-1, utf-8 and utf-16 satisfy the laws (proved). False for size()/flush() inside an iteration (refuted): a later lock_file moves the stream."},
 {"property": "C69", "status": "partial", "theorems": ["Verif.Props.C69_tell_seek", "Verif.Props.C69_tell", "Verif.Props.C69_refuted", "Verif.Props.C69_iteration_refuted"], "note": "seek(tell()) proved for all histories; tell succeeds as long as there was no movement; refuted after a movement (failed assertion) and in an iteration after size()."},
 {"property": "C70", "status": "partial", "theorems": ["Verif.Props.C70_lock_keeps", "Verif.Props.C70_unlock_keeps", "Verif.Props.C70_lock_partial", "Verif.Props.C70_lock_then_read", "Verif.Props.C70_refuted", "Verif.Props.C70_iteration_refuted"], "note": "Locks and unlocks do not move the stream; after a lock at a position without characters to skip the stream reads the new content; refuted for a position after a carriage return (stale character) and inside an iteration (OSError)."},
 {"property": "C71", "status": "partial", "theorems": ["Verif.Props.C71_history_partial", "Verif.Props.C71_after_seek", "Verif.Props.C71_written", "Verif.Props.C71_refuted"], "note": "Proved for all histories of writes and movements without reads, and after a seek; false for a write that follows a read without a seek (it goes to the position of the read-ahead)."},
 {"property": "C72", "status": "proved", "theorems": ["Verif.Props.C72_no_lock", "Verif.Props.C72_utilities_no_lock", "Verif.Props.C72_utilities_locked", "Verif.Props.C38_order"], "note": "Log of lock requests, for all outcomes; regular files. Order of lock and truncation: C38."},
 {"property": "C73", "status": "proved", "theorems": ["Verif.Props.C73_buffered", "Verif.Props.C73_same_file", "Verif.Props.C73_reader", "Verif.Props.C73_text"], "note": "For every answer of the system and every history: the file holds its content with a prefix of the pending bytes, the rest is pending; closing gives the same file as closing before."},
 {"property": "C74", "status": "proved", "theorems": ["Verif.Props.C74_line", "Verif.Props.C74_history"], "note": "For every answer of the system; over all writing histories the file has the text of the reference of C71. That buffering=1 selects line buffering is part of C44."},
 {"property": "C75", "status": "partial", "theorems": ["Verif.Props.C75_serial_partial", "Verif.Props.C75_one_way", "Verif.Props.C75_exclusive_partial", "Verif.Props.C75_shared_partial", "Verif.Props.C75_with_refuted"], "note": "For all interleavings of any number of processes, streams and calls: the results are those of one byte array with a position for each stream, up to the first call that is wrong on one stream alone (C23); complete for streams opened for reading only or writing only. The exclusion of the locks is not assumed but comes from the lock system (C01, C02). Refuted for with-blocks that do not flush: the lock is released before the bytes are written."},
 {"property": "C76", "status": "partial", "theorems": ["Verif.Props.C76_excludes_partial", "Verif.Props.C76_exclusive_partial", "Verif.Props.C76_backed", "Verif.Props.C76_dup_shared_refuted", "Verif.Props.C76_dup_unlock_refuted", "Verif.Props.C76_length_refuted"], "note": "Proved when no process has two handles to one file object and all ranges fit in 64 bits; false otherwise (a duplicated handle, a length of 2^64 or more)."},
 {"property": "C77", "status": "partial", "theorems": ["Verif.Props.C77_kernel_locks_held_partial", "Verif.Props.C77_held_in_kernel_partial", "Verif.Props.C77_free_is_granted_partial", "Verif.Props.C77_interrupt_refuted", "Verif.Props.C77_interrupt_blocks_refuted"], "note": "Proved in executions where no interrupt arrives between the grant of a lock and the return of lock_file and where UnlockFileEx and CloseHandle do not fail for reasons of their own (and under the assumptions of C76). False with an interrupt: the kernel lock stays, and a blocking lock_file waits though nobody holds a lock."},
 {"property": "C78", "status": "partial", "theorems": ["Verif.Props.C78_unlock_partial", "Verif.Props.C78_effect_partial", "Verif.Props.C78_retry_refuted"], "note": "The history version is proved under the assumptions of C77; that a call that returns released exactly this lock is proved with failing calls and interrupts, too. False after an UnlockFileEx call that failed: the registration is gone, the next call raises RuntimeError though the lock is held."},
 {"property": "C79", "status": "partial", "theorems": ["Verif.Props.C79_close_partial", "Verif.Props.C79_spares_partial", "Verif.Props.C79_handles_stay", "Verif.Props.C79_error_refuted"], "note": "That owed handles get closed is proved under the assumptions of C77; that no other handle is closed by rsfile, and that the closed one is closed, with failing calls and interrupts, too. False if UnlockFileEx fails within close(): the handle is never closed."},
 {"property": "C80", "status": "partial", "theorems": ["Verif.Props.C80_handles_partial", "Verif.Props.C80_refuted"], "note": "With failing calls, interrupts, duplicated handles and any ranges; supposing that nobody else closes or wraps a handle that an open stream uses. False otherwise (C80_refuted)."},
 {"property": "C81", "status": "partial", "theorems": ["Verif.Props.C81_own_locks_partial", "Verif.Props.C81_retry_refuted"], "note": "Proved under the assumptions of C77. False after an UnlockFileEx call that failed: the registration is gone, lock_file does not raise (C81_retry_refuted)."},
 {"property": "C82", "status": "proved", "theorems": ["Verif.Props.C82_must_create", "Verif.Props.C82_must_exist", "Verif.Props.C82_frame", "Verif.Props.C82_refusal", "Verif.Props.C82_handle"], "note": "Windows open of a path, without an opener."},
 {"property": "C83", "status": "proved", "theorems": ["Verif.Props.C83_order", "Verif.Props.C83_locked", "Verif.Props.C83_content"], "note": "Windows open of a path."},
 {"property": "C84", "status": "proved", "theorems": ["Verif.Props.C84_failed", "Verif.Props.C84_closed"], "note": "Windows open of a path; every lock belongs to an open handle before the call."},
 {"property": "C85", "status": "partial", "theorems": ["Verif.Props.C85_partial", "Verif.Props.C85_lost", "Verif.Props.C85_refuted"], "note": "False since python 3.12 for streams open for writing: C85_refuted; C85_lost says exactly what is lost; C85_partial covers the other streams and older pythons."},
 {"property": "C86", "status": "partial", "theorems": ["Verif.Props.C86_partial", "Verif.Props.C86_exhausted", "Verif.Props.C86_refuted"], "note": "False: the descriptors lost by C85 run out (C86_refuted, C86_exhausted). C86_partial assumes that two descriptors are free and that 0 is in use or the buffering is given."},
 {"property": "C87", "status": "proved", "theorems": ["Verif.Props.C87_borrowed", "Verif.Props.C87_owned", "Verif.Props.C87_failed", "Verif.Props.C87_locks", "Verif.Props.C87_invalid", "Verif.Props.C87_directory"], "note": "The wrapped handle or descriptor is open; descriptors are below 8192, the limit of the C library."},
 {"property": "C88", "status": "partial", "theorems": ["Verif.Props.C88_partial", "Verif.Props.C88_refuted"], "note": "False for descriptor 0 with an erasing mode (C88_refuted); C88_partial covers everything else."},
 {"property": "C89", "status": "partial", "theorems": ["Verif.Props.C89_partial", "Verif.Props.C89_lost", "Verif.Props.C89_refuted", "Verif.Props.C89_pipe_refuted"], "note": "False (C89_refuted, C89_pipe_refuted). C89_lost says exactly which descriptors there are afterwards; C89_partial is the case where none is lost."},
 {"property": "C90", "status": "proved", "theorems": ["Verif.Props.C90_books", "Verif.Props.C90_grows", "Verif.Props.C90_complete"], "note": "C90_books: the whole history agrees with a ledger of pieces and pending bytes; C90_grows: the file is only extended; C90_complete: after closing everything has arrived. A call is atomic (as O_APPEND writes are on a local file system)."},
 {"property": "C91", "status": "partial", "theorems": ["Verif.Props.C91_write", "Verif.Props.C91_write_partial", "Verif.Props.C91_refuted", "Verif.Props.C91_empty_refuted"], "note": "False of the code when the position is behind the end (the bytes of the gap are whatever the system leaves: _inner_extend(zero_fill=True) does nothing) and for empty data (returns None); proved otherwise."},
 {"property": "C92", "status": "partial", "theorems": ["Verif.Props.C92_buffered_partial", "Verif.Props.C92_text_partial", "Verif.Props.C92_gap_refuted", "Verif.Props.C92_truncate_refuted"], "note": "Any answers of the system (a transfer of nothing counts as a refusal). False of the code for gaps and for truncate beyond the end; truncate is left out, and for text streams sync, where unix has more to choose from."},
 {"property": "C93", "status": "partial", "theorems": ["Verif.Props.C93_refines_partial", "Verif.Props.C93_text_partial", "Verif.Props.C93_reads", "Verif.Props.C93_lines", "Verif.Props.C93_tell_seek", "Verif.Props.C93_text_write_partial", "Verif.Props.C93_written"], "note": "Supposing that gaps read as zeros. Up to the first call that C23 excludes, or truncate beyond the end (C28). Text streams: without truncate and sync."},
 {"property": "C94", "status": "partial", "theorems": ["Verif.Props.C94_locked_partial", "Verif.Props.C94_apart_partial", "Verif.Props.C94_grows", "Verif.Props.C94_kept", "Verif.Props.C94_alone", "Verif.Props.C94_refuted"], "note": "False of the code when two writes overlap: moving to the end and writing are two system calls. Proved when writes do not overlap, in particular when programs hold the lock of the file while they write. For any programs: a write overwrites nothing that was in the file when it was called (C94_kept). C94_alone ties the machine to Raw.write."},
 {"property": "C95", "status": "partial", "theorems": ["Verif.Props.C95_partial", "Verif.Props.C95_lost", "Verif.Props.C95_cached", "Verif.Props.C95_exhausted", "Verif.Props.C95_refuted"], "note": "Proved for the ctypes backend (C95_partial). False with pywin32 (C95_refuted): every times() that returns, and the first unique_id(), leave a descriptor of the C library behind (C95_lost, exact), so that after at most 8192 calls times() fails (C95_exhausted). unique_id() asks once (C95_cached)."},
 {"property": "C96", "status": "partial", "theorems": ["Verif.Props.C96_borrowed", "Verif.Props.C96_owned_partial", "Verif.Props.C96_failed", "Verif.Props.C96_locks", "Verif.Props.C96_postponed", "Verif.Props.C96_invalid", "Verif.Props.C96_directory", "Verif.Props.C96_refuted"], "note": "False of the code for descriptor 0 with closefd=True: close() raises AssertionError and leaves it open (C96_refuted). C96_owned_partial covers all other descriptors. A failing call with closefd=True may close the descriptor (C96_failed); that of a directory stays open if no system call fails (C96_directory)."},
 {"property": "C97", "status": "proved", "theorems": ["Verif.Props.C97_order", "Verif.Props.C97_together", "Verif.Props.C97_amount", "Verif.Props.C97_failure_refuted", "Verif.Props.C97_readinto_refuted"], "note": "Beyond the statement: if a system call fails the bytes the same read() had already got are lost (C97_failure_refuted); readinto() on a non-blocking stream takes buffered bytes and raises TypeError (C97_readinto_refuted)."},
 {"property": "C98", "status": "partial", "theorems": ["Verif.Props.C98_history", "Verif.Props.C98_after_seek", "Verif.Props.C98_read_back", "Verif.Props.C98_round_trip", "Verif.Props.C98_tell_back", "Verif.Props.C98_refuted"], "note": "Proved for all histories as far as the reference considers the calls, which are all of them if a movement stands between reading and writing. Missing: positions that tell() returns between writes, for encodings with a byte order mark on a stream that was never read: false (C98_refuted, reading raises UnicodeError)."},
 {"property": "C99", "status": "partial", "theorems": ["Verif.Props.C99_reported_partial", "Verif.Props.C99_no_backend_error", "Verif.Props.C99_success", "Verif.Props.C99_read", "Verif.Props.C99_backends_partial", "Verif.Props.C99_refuted", "Verif.Props.C99_unique_id_refuted"], "note": "Proved for every method, backend and sequence of answers, with three exceptions that are refuted: close() on windows reports EBADF whatever os.close reported; sync() on unix ignores failures of F_FULLFSYNC and fdatasync; unique_id() on windows raises an OSError with number 50 or 22 by backend if the system has no file number. The backends are equal if the table of the interpreter is that of rsfile; times() and unique_id() excepted, which make different calls. Locking calls are C10-C14, opening C41/C84."},
 {"property": "C100", "status": "partial", "theorems": ["Verif.Props.C100_order_partial", "Verif.Props.C100_amount_partial", "Verif.Props.C100_single_bytes_partial", "Verif.Props.C100_file", "Verif.Props.C100_newline_refuted", "Verif.Props.C100_character_refuted", "Verif.Props.C100_read_refuted"], "note": "order and amount up to the first exception, without carriage returns where newlines are translated; in full for encodings with one byte per character without read(); refuted for a would-block between \\r and \\n, inside a character, and for read()"},
 {"property": "C101", "status": "partial", "theorems": ["Verif.Props.C101_history_partial", "Verif.Props.C101_characters_partial", "Verif.Props.C101_continued_partial", "Verif.Props.C101_bytes_refuted", "Verif.Props.C101_newline_refuted", "Verif.Props.C101_line_refuted"], "note": "the bytes in the file and pending are accounted for in every history; in characters for encodings with one byte per character, without line buffering and without replaced newlines; refuted otherwise: characters_written is a number of bytes, and 0 if a complete line could not be flushed"},
 {"property": "C102", "status": "partial", "theorems": ["Verif.Props.C102_owner", "Verif.Props.C102_release", "Verif.Props.C102_close_partial", "Verif.Props.C102_unlock_partial", "Verif.Props.C102_lock_partial", "Verif.Props.C102_fork_partial", "Verif.Props.C102_fork_refuted"], "note": "The mutex is released after a bounded number of steps of its owner in every execution; close, unlock_file and timed lock_file complete by steps of their own process. False in children of fork created while another thread owns the mutex: the child is stuck for ever."},
 {"property": "C103", "status": "partial", "theorems": ["Verif.Props.C103_forgotten", "Verif.Props.C103_closed", "Verif.Props.C103_data_partial", "Verif.Props.C103_written_partial", "Verif.Props.C103_with", "Verif.Props.C103_with_closed", "Verif.Props.C103_cycle_refuted"], "note": "with blocks: proved. Forgotten streams are closed exactly once in every order of finalisation; the pending data reach the file unless the raw object is finalised first, which happens in reference cycles and loses them silently (refuted)."},
 {"property": "C104", "status": "partial", "theorems": ["Verif.Props.C104_readline", "Verif.Props.C104_answers", "Verif.Props.C104_readlines", "Verif.Props.C104_hint", "Verif.Props.C104_readlines_answers", "Verif.Props.C104_writelines_partial", "Verif.Props.C104_writelines_answers", "Verif.Props.C104_closed_partial", "Verif.Props.C104_torn_refuted", "Verif.Props.C104_lost_refuted", "Verif.Props.C104_closed_refuted", "Verif.Props.C104_writelines_refuted", "Verif.Props.C104_skipped_refuted"], "note": "readline, readlines, iteration on blocking streams: proved, also with size and hint; for all answers what is returned is the next part of the file. Refuted: torn lines when a call would block, bytes lost when a call fails, writelines with short transfers or would-block (remainder silently skipped), readline(0) on a closed stream."},
 {"property": "C105", "status": "partial", "theorems": ["Verif.Props.C105_resumes_partial", "Verif.Props.C105_reads_partial", "Verif.Props.C105_refuted"], "note": "Proved after every history without next, close and truncate: content and place after the write, and all results of later calls that do not write (C68's reference), without a flush in between. Refuted after next: no snapshot is taken during an iteration, write then keeps the decoded characters, and read returns text from before the place written."},
 {"property": "C106", "status": "partial", "theorems": ["Verif.Props.C106_readall_partial", "Verif.Props.C106_reader", "Verif.Props.C106_writer", "Verif.Props.C106_text_partial", "Verif.Props.C106_peek_partial", "Verif.Props.C106_readall_refuted", "Verif.Props.C106_write_refuted", "Verif.Props.C106_text_refuted"], "note": "Proved for all histories as long as readall is called when nothing was read ahead and nothing waits to be written, e.g. directly after seek, lock_file, unlock_file, or on a new stream; a stream opened for writing only rejects it; read1 and peek of a text stream acts at the position of its buffered stream. Refuted otherwise: readall skips what was read ahead and delivers it later, out of order; with a pending write it makes the write go to the end of the file; peek on a text stream skips what was decoded ahead."},
 {"property": "C107", "status": "partial", "theorems": ["Verif.Props.C107_alone", "Verif.Props.C107_others", "Verif.Props.C107_section_partial", "Verif.Props.C107_append", "Verif.Props.C107_read", "Verif.Props.C107_log", "Verif.Props.C107_refuted", "Verif.Props.C107_unlock_refuted", "Verif.Props.C107_locks", "Verif.Props.C107_log_locks"], "note": "Proved: isolation of sections, that streams without the lock do not change the file, correctness of sections that begin with seek to an offset or to the end, and the append-only log for all histories. Refuted for sections that do not begin with a seek: lock_file resets the buffers before it waits, and this decodes again a character that followed a carriage return, so stale text is read. Refuted: unlock_file fails inside an iteration over lines, and the lock stays held. The exclusion of locks is not an assumption: C107_locks derives it from the system that grants the locks, so that all theorems hold of the programs run beside it."},
 {"property": "C108", "status": "partial", "theorems": ["Verif.Props.C108_shared_partial", "Verif.Props.C108_alone_partial", "Verif.Props.C108_wait_refuted", "Verif.Props.C108_iteration_refuted"], "note": "Proved for calls through proxies: composition of the serialisation of C52 with the refinement of C23; a call that finds the mutex free ends by its own steps with its sequential result. Refuted: a thread that waits in lock_file holds the mutex, so other calls wait beyond every bound; iteration bypasses the mutex."},
 {"property": "C109", "status": "partial", "theorems": ["Verif.Props.C109_flag", "Verif.Props.C109_raw", "Verif.Props.C109_buffered_partial", "Verif.Props.C109_flush_partial", "Verif.Props.C109_text_partial", "Verif.Props.C109_line", "Verif.Props.C109_lost", "Verif.Props.C109_refuted", "Verif.Props.C109_wrapped_refuted"], "note": "Proved: the flag reaches the descriptor exactly with S; writes of raw streams are stored when they return; of buffered and text streams, what others see in the file is stored after every call, everything after flush(), and lines at once with line buffering. Refuted: a buffered write returns without a system call (the default of rsopen is a buffered stream), and with a given descriptor the flag is ignored although the stream says it is synchronized."},
 {"property": "C110", "status": "partial", "theorems": ["Verif.Props.C110_serial_partial", "Verif.Props.C110_register_partial", "Verif.Props.C110_torn_refuted", "Verif.Props.C110_marks_refuted"], "note": "Proved for all interleavings: the calls are serializable in the order of their ends, and (register) reads in binary mode return the whole content, writes replace it and appends extend it, when no two streams of one process hold shared locks on the file at the same time and the encoder of an appending text stream starts in the middle like at the beginning. Refuted otherwise: two threads of one process that read give up each other's lock, so that one of them can read a file that is being rewritten; two processes that append UTF-16 text to an empty file both write a byte order mark."},
 {"property": "C111", "status": "partial", "theorems": ["Verif.Props.C111_records_partial", "Verif.Props.C111_file_partial", "Verif.Props.C111_exclusive_partial", "Verif.Props.C111_shared_partial", "Verif.Props.C111_extend_refuted"], "note": "Proved for all histories of streams that lock the bytes they use, also together with the processes and the kernel that grant the locks (exclusive locks, or shared ones as far as C02 holds), when no call changes the size of the file or seeks to before its beginning. Refuted for calls that extend the file: a stream that writes the bytes it has locked beyond the end changes the size, and the zero bytes before them, only when it flushes."},
 {"property": "C112", "status": "partial", "theorems": ["Verif.Props.C112_buffered_partial", "Verif.Props.C112_one_way", "Verif.Props.C112_text_partial", "Verif.Props.C112_text_refuted"], "note": "Proved for buffered streams after all histories up to a call that is wrong anyway (C23), without exception for readers and writers; for text streams at positions without characters to skip. Refuted for text streams after a carriage return: the lock starts one byte too late."},
 {"property": "C113", "status": "partial", "theorems": ["Verif.Props.C113_same", "Verif.Props.C113_owned_partial", "Verif.Props.C113_borrowed", "Verif.Props.C113_failed_partial", "Verif.Props.C113_refuted", "Verif.Props.C113_directory_refuted"], "note": "Equivalence with wrapping the descriptor proved for all openers. Failing calls: proved for sound arguments and files that are no directories; false for arguments that are checked after the opener was called (encoding of a binary stream etc.) and for directories, where the descriptor stays open. Descriptor 0 as in C96."},
 {"property": "C114", "status": "partial", "theorems": ["Verif.Props.C114_serial_partial", "Verif.Props.C114_one_way", "Verif.Props.C114_locks_partial", "Verif.Props.C114_gap_refuted", "Verif.Props.C114_with_refuted"], "note": "Proved up to the first call that the code gets wrong on one stream (C23, and truncate to a larger size), without exception for one-way streams that do not truncate; locks from the windows lock system under the assumptions of C76, shared locks within one process included. False for gaps that the system does not fill with zeros, and for with blocks that do not flush. That windows refuses transfers on ranges locked by others is not modelled here."},
 {"property": "C115", "status": "partial", "theorems": ["Verif.Props.C115_written_partial", "Verif.Props.C115_lines", "Verif.Props.C115_refused", "Verif.Props.C115_opened", "Verif.Props.C115_rewound_partial", "Verif.Props.C115_lost_refuted", "Verif.Props.C115_position_refuted", "Verif.Props.C115_lock_refuted", "Verif.Props.C115_fixed_refuted", "Verif.Props.C115_bom_refuted"], "note": "Proved for streams that are not read (any number of calls of reconfigure, any settings), for line buffering, right after opening, for the refusal after text was read, and for streams that are moved to the beginning in between. False for streams that were read: what the decoder holds back is lost, tell() and lock_file() raise AssertionError, and a second call may change the newlines although text was read; false on pipes, where another byte order mark is written."},
 {"property": "C116", "status": "partial", "theorems": ["Verif.Props.C116_private", "Verif.Props.C116_unwrapped", "Verif.Props.C116_timed", "Verif.Props.C116_shared_partial", "Verif.Props.C116_other_refuted", "Verif.Props.C116_cross_refuted"], "note": "Proved when every stream is used by one thread, for streams without wrappers, when every lock_file has a timeout, and for shared wrappers when all locks include one byte (for example locks of whole files) and a thread that has a lock uses only the stream that it has locked with. False otherwise: lock_file() waits while it holds the mutex of the wrapper, so that a thread that has a lock and uses another stream, or only wants to call unlock_file(), waits for ever."},
 {"property": "C117", "status": "partial", "theorems": ["Verif.Props.C117_turns_partial", "Verif.Props.C117_one_way_partial", "Verif.Props.C117_written_partial", "Verif.Props.C117_ahead_refuted", "Verif.Props.C117_twice_refuted", "Verif.Props.C117_order_refuted"], "note": "Proved for processes that take turns: each settles the stream (seek(0, SEEK_CUR), lock_file, unlock_file, or flush/size on a stream that is only written to) before another one uses it or is made; and for processes that write at the end of the file and have nothing pending at a fork, whatever the system answers: every accepted byte is stored once and the bytes of each process keep their order. False otherwise: the buffers are not shared, so that bytes read ahead by one process are lost for the others, pending bytes are stored once for each process that was made meanwhile, and bytes are stored in the order of the flushes."},
 {"property": "C118", "status": "partial", "theorems": ["Verif.Props.C118_handover_partial", "Verif.Props.C118_writer", "Verif.Props.C118_nothing_lost", "Verif.Props.C118_orphan", "Verif.Props.C118_refuted"], "note": "Proved, up to the calls that C23 excludes, except for the position after reads: detach() leaves the raw stream behind the bytes that were read ahead, so that a new stream misses them (C118_refuted). Without restriction for streams that are only written to. Nothing is lost when flushing fails, whatever the system answers. Text streams: C120."},
 {"property": "C119", "status": "partial", "theorems": ["Verif.Props.C119_alone", "Verif.Props.C119_others", "Verif.Props.C119_section_partial", "Verif.Props.C119_append", "Verif.Props.C119_read", "Verif.Props.C119_log", "Verif.Props.C119_refuted", "Verif.Props.C119_wait_refuted", "Verif.Props.C119_unlock_refuted", "Verif.Props.C119_locks", "Verif.Props.C119_log_waiting", "Verif.Props.C119_log_waiting_locks"], "note": "Proved for sections that begin with a movement and neither truncate nor synchronise, as long as a stream that asks for a held lock needs no transfer for it, on systems that fill gaps with zeros. False otherwise: a section that does not begin with a movement may see an old character (C119_refuted); lock_file() fails instead of waiting when resetting the buffers reads bytes that another stream has locked (C119_wait_refuted); unlock_file() fails inside an iteration (C119_unlock_refuted). C119_alone and C119_others hold for all sections. The exclusion of locks comes from the lock system of windows (C119_locks). For logs the condition about waiting streams is not needed: C119_log_waiting proves that it always holds and that no lock_file() of an open stream fails before it waits, C119_log_waiting_locks the same together with the lock system."},
 {"property": "C120", "status": "partial", "theorems": ["Verif.Props.C120_handover_partial", "Verif.Props.C120_moved", "Verif.Props.C120_nothing_lost", "Verif.Props.C120_orphan", "Verif.Props.C120_refuted"], "note": "Proved for streams that were written, moved, truncated and asked for their position before and after; up to the first call of the buffered stream that C23 excludes, and if the buffered stream holds no bytes read ahead when the new text stream is made. False after reading (C120_refuted): the chunk that was read ahead is lost; after a movement to an offset or to the end the position is right again (C120_moved). C120_nothing_lost and C120_orphan hold in all states."},
 {"property": "C121", "status": "partial", "theorems": ["Verif.Props.C121_append_partial", "Verif.Props.C121_writer", "Verif.Props.C121_logging", "Verif.Props.C121_windows_partial", "Verif.Props.C121_windows_logging", "Verif.Props.C121_refuted", "Verif.Props.C121_truncate_refuted", "Verif.Props.C121_windows_writer"], "note": "Proved up to the first call that C23 excludes, or that asks for the position, or cuts a stream for reading and writing at it, while there are pending bytes that were written elsewhere than at the end: for those it is false (C121_refuted, C121_truncate_refuted). Without restriction for streams for writing that are not asked for their position (C121_writer) and for logs (C121_logging). On windows also without truncate to a larger size (C28); without restriction for streams for writing that cut files only to nothing (C121_windows_writer)."},
 {"property": "C122", "status": "partial", "theorems": ["Verif.Props.C122_append_partial", "Verif.Props.C122_unmarked", "Verif.Props.C122_logging", "Verif.Props.C122_windows_partial", "Verif.Props.C122_refuted", "Verif.Props.C122_missing_refuted"], "note": "Proved for all histories with encodings without a mark (C122_unmarked: latin-1, utf-8), for logs with all encodings (C122_logging), and in general up to the first write at the start of a file with content or behind the start of an empty one. There it is false for encodings with a mark: a stream opened on an empty file writes a second byte order mark into the middle when another process wrote before it got the lock (C122_refuted), and one moved behind the end of an empty file writes none (C122_missing_refuted). On windows without truncate and sync."},
 {"property": "C123", "status": "partial", "theorems": ["Verif.Props.C123_serial_partial", "Verif.Props.C123_one_way", "Verif.Props.C123_log", "Verif.Props.C123_exclusive_partial", "Verif.Props.C123_log_exclusive", "Verif.Props.C123_windows_partial", "Verif.Props.C123_windows_log", "Verif.Props.C123_windows_log_locks", "Verif.Props.C123_plain_refuted", "Verif.Props.C123_refuted", "Verif.Props.C123_windows_one_way", "Verif.Props.C123_shared_partial"], "note": "Proved up to the first call that C23 or C121 excludes; without restriction for logs (C123_log, C123_log_exclusive with the lock system) and for streams opened for one direction that are not asked for their position (C123_one_way). False otherwise: a stream in append mode that gets the lock after another one wrote returns a wrong position from tell() after its first write, without any movement (C123_refuted). C123_plain_refuted: for streams that are not in append mode the claim about logs is false. On windows without truncate to a larger size; in full for one-way streams that cut files only to nothing (C123_windows_one_way)."},
 {"property": "C124", "status": "partial", "theorems": ["Verif.Props.C124_serial_partial", "Verif.Props.C124_unmarked", "Verif.Props.C124_log", "Verif.Props.C124_begun", "Verif.Props.C124_windows_partial", "Verif.Props.C124_windows_log", "Verif.Props.C124_windows_begun", "Verif.Props.C124_windows_waits", "Verif.Props.C124_windows_waits_begun", "Verif.Props.C124_refuted", "Verif.Props.C124_locks", "Verif.Props.C124_log_locks", "Verif.Props.C124_windows_locks", "Verif.Props.C124_windows_log_locks", "Verif.Props.C124_windows_cut_partial", "Verif.Props.C124_windows_cut_locks"], "note": "Proved without exception for encodings without a mark (C124_unmarked, C124_log), and for all encodings when the file was begun and the streams are opened behind its start and not moved to an offset (C124_begun). Otherwise up to the first write that C122 excludes (C124_serial_partial). False there: two processes that open an empty file both write a byte order mark (C124_refuted). On windows without sync and without truncate to a larger size (C28, C124_windows_cut_partial); that a waiting stream prepares for the lock without a transfer, which the system would refuse, is proved in the cases without exception (C124_windows_waits). The exclusion of locks comes from the system that grants them (C124_locks, C124_windows_locks)."},
 {"property": "C125", "status": "partial", "theorems": ["Verif.Props.C125_rotation", "Verif.Props.C125_exclusive", "Verif.Props.C125_windows", "Verif.Props.C125_windows_locks", "Verif.Props.C125_text_partial", "Verif.Props.C125_text_begun", "Verif.Props.C125_text_locks", "Verif.Props.C125_text_windows", "Verif.Props.C125_text_windows_begun", "Verif.Props.C125_text_windows_locks", "Verif.Props.C125_text_refuted", "Verif.Props.C125_plain_refuted"], "note": "Buffered streams: proved on unix and windows, also together with the systems that grant the locks. Text streams: proved on unix and windows for encodings without a mark (C125_text_partial, C125_text_windows), and for all encodings when the log was begun, is not emptied, and the streams are opened behind its start and not moved to an offset (C125_text_begun, C125_text_windows_begun); false otherwise: a log that was emptied gets no byte order mark (C125_text_refuted). Text streams on windows without sync. Append mode is needed: otherwise a stream goes on at its old position and leaves a gap (C125_plain_refuted)."},
 {"property": "C126", "status": "partial", "theorems": ["Verif.Props.C126_follow", "Verif.Props.C126_caught_up", "Verif.Props.C126_lines", "Verif.Props.C126_windows", "Verif.Props.C126_windows_caught_up", "Verif.Props.C126_windows_lines", "Verif.Props.C126_exclusive", "Verif.Props.C126_shared_partial", "Verif.Props.C126_windows_locks", "Verif.Props.C126_tell", "Verif.Props.C126_served", "Verif.Props.C126_windows_tell", "Verif.Props.C126_windows_served"], "note": "Proved on unix (C126_follow, C126_caught_up, C126_lines, C126_tell, C126_served) and windows, for programs that keep to their critical sections; on windows also together with the system that grants the locks, on unix too with exclusive locks. Missing: with shared locks on unix the exclusion is derived from the lock system only when no two streams of one process hold or request overlapping shared locks (C126_shared_partial; C02 is false otherwise). Streams in append mode are not asked for their position (C123_refuted)."},
 {"property": "C127", "status": "partial", "theorems": ["Verif.Props.C127_update", "Verif.Props.C127_served", "Verif.Props.C127_windows", "Verif.Props.C127_windows_served", "Verif.Props.C127_exclusive", "Verif.Props.C127_shared_partial", "Verif.Props.C127_windows_locks", "Verif.Props.C127_text_section", "Verif.Props.C127_text", "Verif.Props.C127_text_final", "Verif.Props.C127_text_locks", "Verif.Props.C127_text_windows", "Verif.Props.C127_text_windows_final", "Verif.Props.C127_text_windows_locks", "Verif.Props.C127_text_windows_waiting", "Verif.Props.C127_text_windows_waiting_final", "Verif.Props.C127_text_windows_waiting_locks"], "note": "Proved on unix (C127_update, C127_served) and windows, for programs that keep to their critical sections; on windows also together with the system that grants the locks, on unix too with exclusive locks. For text streams with exclusive locks and seek/read/seek/write/truncate sections: C127_text, C127_text_final, C127_text_locks on unix, C127_text_windows, C127_text_windows_final, C127_text_windows_locks on windows, where a stream that asks for a held lock needs no transfer for it; that this is always so, and that no lock_file() of an open stream fails before it waits, is proved in C127_text_windows_waiting, with the same conclusions for all such histories (C127_text_windows_waiting_final, C127_text_windows_waiting_locks). Missing: with shared locks on unix the exclusion is derived from the lock system only when no two streams of one process hold or request overlapping shared locks (C127_shared_partial; C02 is false otherwise)."}
]}
