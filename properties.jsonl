{"id": "C01", "title": "Exclusive locks are mutually exclusive across streams, threads and processes", "statement": "On unix, two exclusive lock_file() locks that cover a common byte of the same file are never held at the same time by two different streams, whether those streams live in the same process or in different processes: between the moment lock_file(shared=False) returns on one stream and the moment that stream calls unlock_file() on the range or close(), no other stream gets lock_file(shared=False) to return on an overlapping range.", "quantifier": "every history of open, lock_file (blocking, non-blocking, failing, retried), unlock_file, close, fork and process exit, by any number of processes, threads and streams, in every interleaving", "why_tests_cant": "it is a claim over all schedules of an unbounded number of processes; a test run exercises one schedule and the kernel hides most orders", "anchors": ["src/rsfile/rsfileio_abstract.py:lock_file", "src/rsfile/rsfileio_abstract.py:unlock_file", "src/rsfile/rsfileio_abstract.py:close", "src/rsfile/rsfile_registries.py:IntraProcessLockRegistryClass", "src/rsfile/rsfileio_unix.py:_inner_file_lock", "src/rsfile/rsfileio_unix.py:_inner_file_unlock"]}
{"id": "C02", "title": "A shared lock keeps writers out", "statement": "While a stream holds a shared lock on a byte range, no other stream (in any process) holds an exclusive lock on any byte of that range.", "quantifier": "same histories as C01", "why_tests_cant": "the violating histories need two shared locks of one process plus a writer in another process at the right moment", "anchors": ["src/rsfile/rsfileio_abstract.py:lock_file", "src/rsfile/rsfile_registries.py:_try_locking_range", "src/rsfile/rsfileio_unix.py:_inner_file_unlock"]}
{"id": "C03", "title": "Within a process a lock request is granted exactly when no conflicting byte is locked", "statement": "A non-blocking request by a stream that owns no lock on any requested byte is accepted by the intra-process check if and only if no other stream of the process holds a lock on one of the requested bytes with at least one of the two locks exclusive; length None or 0 means 'to infinity'.", "quantifier": "every set of registered locks, every requested start, length, sharing mode and handle", "why_tests_cant": "byte ranges are unbounded, including infinite ones; boundary cases (adjacent, nested, infinite) cannot be enumerated", "anchors": ["src/rsfile/rsfile_registries.py:_try_locking_range"]}
{"id": "C04", "title": "No re-entrant locking on the same handle", "statement": "A lock_file() call whose range overlaps a range already locked through the same native handle raises RuntimeError whatever the two sharing modes and whatever locks other streams hold earlier in the table, unless a conflicting lock of another stream is met first; it never succeeds, and leaves every lock of the process unchanged.", "quantifier": "every registry state and every request", "why_tests_cant": "depends on all combinations of existing ranges and their order in the table", "anchors": ["src/rsfile/rsfile_registries.py:_try_locking_range", "src/rsfile/rsfile_registries.py:register_file_lock"]}
{"id": "C05", "title": "Closing one stream never drops the locks of another stream (fcntl gotcha)", "statement": "A native descriptor of a file is really closed by rsfile only when the process has no lock (held or being acquired) registered on that file, so closing a stream never releases the kernel locks that other streams of the same process hold on the same file.", "quantifier": "every history of opens, locks, unlocks and closes of any number of streams on any number of files in a process", "why_tests_cant": "the loss is silent: the process that lost its lock observes nothing; only an invariant over all histories settles it", "anchors": ["src/rsfile/rsfileio_unix.py:_inner_close_streams", "src/rsfile/rsfileio_unix.py:_purge_pending_related_file_descriptors", "src/rsfile/rsfile_registries.py:add_unique_id_data", "src/rsfile/rsfile_registries.py:try_deleting_unique_id_entry"]}
{"id": "C06", "title": "close() releases all the locks of its stream and only those, and is idempotent", "statement": "After close() no lock owned by the closed handle on the file is registered any more, all locks of other handles and of other files are untouched, and a second close() changes nothing.", "quantifier": "every registry state and stream", "why_tests_cant": "requires looking at all other locks of the process for all states", "anchors": ["src/rsfile/rsfileio_abstract.py:close", "src/rsfile/rsfile_registries.py:remove_file_locks"]}
{"id": "C07", "title": "Postponed descriptors are eventually closed", "statement": "Descriptors whose native closing was postponed (because of locks on the same file) are all closed, each exactly once, by the first unlock_file() or close() that leaves the file without any lock in the process; a process with no lock registered on a file keeps no postponed descriptor for it.", "quantifier": "every history of a process", "why_tests_cant": "descriptor leaks only show after long histories; double closes depend on descriptor reuse", "anchors": ["src/rsfile/rsfileio_unix.py:_purge_pending_related_file_descriptors", "src/rsfile/rsfile_registries.py:remove_unique_id_data", "src/rsfile/rsfileio_abstract.py:lock_file"]}
{"id": "C08", "title": "unlock_file() removes exactly the one lock with that handle and that exact range", "statement": "unlock_file(length, offset) removes the lock registered by the same handle with the same start and same end and nothing else; if the handle holds no such lock it raises RuntimeError and changes nothing (no splitting, no merging, no unlocking of ranges owned by others).", "quantifier": "every registry state, handle and range", "why_tests_cant": "all near-miss ranges would have to be tried", "anchors": ["src/rsfile/rsfile_registries.py:_try_unlocking_range", "src/rsfile/rsfile_registries.py:unregister_file_lock", "src/rsfile/rsfileio_abstract.py:unlock_file"]}
{"id": "C09", "title": "A blocked lock_file() is woken up when the conflicting lock goes away (no lost wake-up)", "statement": "A thread blocked in lock_file(timeout=None) behind a lock of its own process is notified as soon as the conflicting lock is released, by unlock_file() or by close() of the owning stream; it never sleeps forever while no conflicting lock is registered.", "quantifier": "every interleaving of threads of a process", "why_tests_cant": "a lost wake-up depends on the exact interleaving, and on which of the two release paths is taken", "anchors": ["src/rsfile/rsfile_registries.py:register_file_lock", "src/rsfile/rsfile_registries.py:_try_unlocking_range", "src/rsfile/rsfile_registries.py:remove_file_locks", "src/rsfile/rsfileio_abstract.py:close"]}
{"id": "C10", "title": "A failed lock_file() leaves no lock behind", "statement": "When lock_file() ends with an exception (LockingException, RuntimeError, an error of the kernel call, any other exception), the process owns exactly the locks it owned before the call as far as that handle is concerned: the intra-process registration made by the call is undone.", "quantifier": "every sequence of registry and kernel answers, every timeout setting and clock", "why_tests_cant": "failure can occur at any iteration of the retry loop and for any reason", "anchors": ["src/rsfile/rsfileio_abstract.py:lock_file"]}
{"id": "C11", "title": "Timeout semantics of lock_file()", "statement": "With a timeout given, LockingException is raised only after a failed attempt observed at least 'timeout' seconds after the start; timeout=0 makes at most one attempt and never sleeps; an attempt that succeeds returns even if the deadline is over; the call never raises a timeout error while attempts succeed.", "quantifier": "every timeout, every sequence of clock readings and attempt outcomes", "why_tests_cant": "clock readings and outcomes are unbounded sequences", "anchors": ["src/rsfile/rsfileio_abstract.py:lock_file", "src/rsfile/rsfileio_abstract.py:check_timeout"]}
{"id": "C12", "title": "enforced_locking_timeout_value applies to blocking calls only", "statement": "The global option makes lock_file(timeout=None) raise RuntimeError only after a failed attempt observed at least that long after the start, never changes the outcome of calls that have their own timeout, and without the option a blocking call never raises a timeout-related error.", "quantifier": "every option value, timeout, clock and outcome sequence", "why_tests_cant": "same as C11", "anchors": ["src/rsfile/rsfileio_abstract.py:lock_file", "src/rsfile/rsfile_registries.py:_default_rsfile_options"]}
{"id": "C13", "title": "lock_file() with a timeout terminates", "statement": "If each sleep advances the clock by at least the configured spin delay d>0, a lock_file() call with timeout t performs at most ceil(t/d)+1 failed attempts before returning or raising (likewise for a blocking call with an enforced timeout, and without any kernel call that blocks).", "quantifier": "every t, d, and every outcome sequence", "why_tests_cant": "a bound for all parameters is a termination argument", "anchors": ["src/rsfile/rsfileio_abstract.py:lock_file"]}
{"id": "C14", "title": "Kernel locking errors that are not contention are reported to the caller", "statement": "When the kernel refuses the lock for a permanent reason (invalid range, bad descriptor, locks unsupported), lock_file() eventually raises.", "quantifier": "every kernel error and every call", "why_tests_cant": "the failing behaviour is an endless loop, which no test can observe", "anchors": ["src/rsfile/rsfileio_abstract.py:lock_file"]}
{"id": "C15", "title": "Sharing-mode rules", "statement": "lock_file(shared=None) takes an exclusive lock on writable streams and a shared one on read-only streams; shared locks require a readable stream and exclusive locks a writable one, otherwise IOError is raised and no lock is attempted; invalid argument values raise BadValueTypeError and no lock is attempted.", "quantifier": "every stream mode and every argument value", "why_tests_cant": "argument space is unbounded", "anchors": ["src/rsfile/rsfileio_abstract.py:lock_file"]}
{"id": "C16", "title": "Locks are not inherited through fork()", "statement": "After fork() the child owns none of the locks of its parent: its registry behaves as an empty one at its first use, and nothing the child does with inherited streams (unlock, close, lock attempts, exit) removes or weakens a lock of the parent.", "quantifier": "every history before and after any number of forks", "why_tests_cant": "fork timing relative to registry use ranges over all histories", "anchors": ["src/rsfile/rsfile_registries.py:_check_forking", "src/rsfile/rsfileio_abstract.py:close", "src/rsfile/rsfileio_unix.py:_inner_close_streams"]}
{"id": "C17", "title": "The context manager returned by lock_file() releases the lock on every exit of the with block", "statement": "Leaving 'with stream.lock_file(...)' normally or by an exception releases exactly the range that was locked.", "quantifier": "every body of the with block, normal or exceptional", "why_tests_cant": "the exceptional path is easily forgotten by tests; bodies are unbounded", "anchors": ["src/rsfile/rsfileio_abstract.py:_lock_remover", "src/rsfile/rsfileio_abstract.py:lock_file"]}
{"id": "C18", "title": "Lock ranges are resolved once", "statement": "Relative ranges (SEEK_CUR, SEEK_END) are converted to absolute offsets when the lock is taken; the range released by the context manager or by close() is that same absolute range even if the file position or size has changed since; length=None and length=0 are interchangeable.", "quantifier": "every offset, whence, file size and position at lock time and at unlock time", "why_tests_cant": "needs all pairs of states", "anchors": ["src/rsfile/rsfileio_abstract.py:_convert_relative_offset_to_absolute", "src/rsfile/rsfileio_abstract.py:_lock_remover", "src/rsfile/rsfileio_abstract.py:close"]}
{"id": "C19", "title": "unlock_file() accepts the arguments that lock_file() accepted", "statement": "If lock_file(length, offset, whence) succeeded and neither file position nor size changed, unlock_file(length, offset, whence) releases that lock.", "quantifier": "every argument triple accepted by lock_file", "why_tests_cant": "argument space unbounded; the two validations differ", "anchors": ["src/rsfile/rsfileio_abstract.py:lock_file", "src/rsfile/rsfileio_abstract.py:unlock_file"]}
{"id": "C20", "title": "Data written under a lock is visible to others before the lock is released", "statement": "On buffered streams, every byte written before the release of a lock (unlock_file() or the end of the with block of lock_file()) has been handed over to the operating system before the kernel lock is released.", "quantifier": "every sequence of writes, every buffer size, every short-write behaviour of the OS", "why_tests_cant": "whether data sits in the buffer at release time depends on sizes and history", "anchors": ["src/rsfile/rsfile_streams.py:_buffer_forwarder_mixin", "src/rsfile/rsfileio_abstract.py:_lock_remover", "src/rsfile/rstest/stdlib/_pyio_py313_backup.py:BufferedWriter"]}
{"id": "C21", "title": "Reads made after lock_file() do not return data buffered before the lock", "statement": "On buffered streams, once lock_file() has returned, reads return the bytes that are in the file at the current logical position from then on, never bytes read ahead before the lock was obtained; the logical position is unchanged by lock_file().", "quantifier": "every history of reads/writes before the lock, every modification of the file by others before the lock is obtained", "why_tests_cant": "staleness depends on read-ahead history and on other processes", "anchors": ["src/rsfile/rsfile_streams.py:_reset_buffers", "src/rsfile/rstest/stdlib/_pyio_py313_backup.py:BufferedReader.seek", "src/rsfile/rstest/stdlib/_pyio_py313_backup.py:BufferedRandom.seek"]}
{"id": "C22", "title": "close() hands over all pending data before releasing locks and descriptor", "statement": "Closing a buffered stream writes all pending bytes to the file before the locks of the stream are released and its descriptor closed; if the flush fails, the exception is reported and the raw stream is closed nevertheless.", "quantifier": "every buffer content, every short-write/error schedule", "why_tests_cant": "error schedules are unbounded", "anchors": ["src/rsfile/rstest/stdlib/_pyio_py313_backup.py:BufferedWriter.close", "src/rsfile/rsfileio_abstract.py:close"]}
{"id": "C23", "title": "A buffered stream behaves as a plain byte array with a position", "statement": "For streams opened for reading, writing or both (not append), any sequence of read, write, seek, tell, flush, truncate, size calls on the buffered stream returns exactly what the same sequence returns on a plain in-memory byte array with a position, for every buffer size and for every pattern of short reads and short writes of the OS, and after flush() the file has the same bytes.", "quantifier": "every operation sequence, buffer size and OS schedule", "why_tests_cant": "refinement over unbounded sequences", "anchors": ["src/rsfile/rstest/stdlib/_pyio_py313_backup.py:BufferedReader", "src/rsfile/rstest/stdlib/_pyio_py313_backup.py:BufferedWriter", "src/rsfile/rstest/stdlib/_pyio_py313_backup.py:BufferedRandom", "src/rsfile/rsfile_streams.py:RSBufferedRandom"]}
{"id": "C24", "title": "size() accounts for pending writes", "statement": "size() on a buffered stream returns the size the file has once all data written so far is in it.", "quantifier": "every state of the buffers", "why_tests_cant": "state space unbounded", "anchors": ["src/rsfile/rsfile_streams.py:_buffer_forwarder_mixin.size"]}
{"id": "C25", "title": "After flush() the raw file pointer equals the logical position", "statement": "flush() pushes all pending bytes to the kernel and makes the position of the raw stream equal to the position reported by tell() (documented contract of flush()).", "quantifier": "every state of the buffers", "why_tests_cant": "state space unbounded", "anchors": ["src/rsfile/rsiobase.py:flush", "src/rsfile/rstest/stdlib/_pyio_py313_backup.py:BufferedWriter.flush", "src/rsfile/rstest/stdlib/_pyio_py313_backup.py:_BufferedIOMixin.flush"]}
{"id": "C26", "title": "Append mode only ever appends", "statement": "On unix every write to a stream opened in append mode leaves all previous bytes of the file unchanged and puts the written bytes at the end, whatever seeks were made and whatever other processes write in between; the final content is the interleaving of the individual writes.", "quantifier": "every sequence of seeks and writes by any number of append streams in any order", "why_tests_cant": "all interleavings", "anchors": ["src/rsfile/rsfileio_unix.py:_inner_create_streams", "src/rsfile/rsfileio_unix.py:_inner_write", "src/rsfile/rsfileio_windows.py:_inner_write"]}
{"id": "C27", "title": "truncate() specification on unix", "statement": "truncate(n) on a writable regular stream returns n, makes the file exactly n bytes long, keeps every byte below min(n, old size), reads as zero beyond the old size, and does not move the file position; truncate() uses the current position; negative sizes are rejected without any effect.", "quantifier": "every content, position and size", "why_tests_cant": "unbounded sizes", "anchors": ["src/rsfile/rsfileio_abstract.py:truncate", "src/rsfile/rsfileio_unix.py:_inner_reduce", "src/rsfile/rsfileio_unix.py:_inner_extend"]}
{"id": "C28", "title": "truncate() specification on windows", "statement": "The same specification as C27 holds for the windows backend with zero_fill=True, where extension is emulated by writing zeros.", "quantifier": "every content, position and size", "why_tests_cant": "the failing sizes are multiples of the internal chunk size", "anchors": ["src/rsfile/rsfileio_abstract.py:truncate", "src/rsfile/rsfileio_windows.py:_inner_extend", "src/rsfile/rsfileio_windows.py:_inner_reduce", "src/rsfile/rsfileio_windows.py:_inner_write"]}
{"id": "C29", "title": "Raw seek/tell/read/write act on a byte array with a position (unix)", "statement": "write puts the accepted prefix of the data at the current position (filling any gap with zeros), read returns the bytes at the current position, both advance the position by the byte count; seek computes start/current/end relative positions and rejects negative targets without moving.", "quantifier": "every content, position, argument and OS short count", "why_tests_cant": "unbounded", "anchors": ["src/rsfile/rsfileio_abstract.py:read", "src/rsfile/rsfileio_abstract.py:write", "src/rsfile/rsfileio_abstract.py:seek", "src/rsfile/rsfileio_unix.py:_inner_seek"]}
{"id": "C30", "title": "readall()/read(-1) return everything up to end of file", "statement": "On a blocking regular file readall() returns all bytes from the current position to the end, for every pattern of short reads, and leaves the position at the end; on a non-blocking stream it returns what was read so far, or None if nothing was available.", "quantifier": "every content and every schedule of short reads / would-block answers", "why_tests_cant": "schedules unbounded", "anchors": ["src/rsfile/rsfileio_abstract.py:readall", "src/rsfile/rsfileio_abstract.py:read"]}
{"id": "C31", "title": "readinto() contract", "statement": "readinto(b) stores the bytes read at the start of b, leaves the rest of b unchanged and returns their count, 0 at end of file, and None when a non-blocking stream has no data.", "quantifier": "every buffer and OS answer", "why_tests_cant": "the would-block answer does not occur with regular files used in tests", "anchors": ["src/rsfile/rsfileio_abstract.py:readinto"]}
{"id": "C32", "title": "Return value of raw write()", "statement": "write(data) returns None when the OS would block, otherwise a count between 1 and len(data) for non-empty data; that many leading bytes of data, and no others, have reached the file.", "quantifier": "all data and all OS answers", "why_tests_cant": "OS answers cannot be scheduled by tests", "anchors": ["src/rsfile/rsfileio_abstract.py:write", "src/rsfile/rsfileio_unix.py:_inner_write", "src/rsfile/rsfileio_windows.py:_inner_write"]}
{"id": "C33", "title": "Operations on a closed stream raise and have no effect", "statement": "After close() every I/O, positioning, size, sync, lock and unlock method raises ValueError and changes neither the file nor the locks of the process.", "quantifier": "every method and argument, every state", "why_tests_cant": "argument space unbounded", "anchors": ["src/rsfile/rsfileio_abstract.py:_checkClosed users"]}
{"id": "C34", "title": "unique_id() is constant over the life of a stream and equal exactly for streams of the same file", "statement": "unique_id() returns the same value during the whole life of the stream, even if the path is deleted, renamed or re-created, and two open streams have equal unique_id() iff they refer to the same file.", "quantifier": "all histories of path operations", "why_tests_cant": "all histories", "anchors": ["src/rsfile/rsfileio_abstract.py:unique_id", "src/rsfile/rsfileio_unix.py:_inner_unique_id"]}
{"id": "C35", "title": "Mode strings: what is accepted", "statement": "A mode string is accepted as standard iff it has no repeated character, only characters of 'xarw+bt' and exactly one of x/a/r/w; as advanced iff it has no repeated character, only characters of 'RAW+-CNSIEBT' and at least one letter; a mode mixing upper and lower case is rejected; the order of flags is irrelevant.", "quantifier": "all strings", "why_tests_cant": "strings are unbounded; permutations too many", "anchors": ["src/rsfile/rsfile_factories.py:rsopen", "src/rsfile/rsfile_factories.py:parse_standard_args", "src/rsfile/rsfile_factories.py:parse_advanced_args", "src/rsfile/rsfile_definitions.py:STDLIB_OPEN_FLAGS"]}
{"id": "C36", "title": "Standard and advanced modes are equivalent as documented", "statement": "Each standard mode opens the file with the same read/write/append/must_create/must_not_create/truncate attributes as its advanced equivalent in the documented table, in any character order and with any binary/text flag.", "quantifier": "all strings of each equivalence class", "why_tests_cant": "all permutations", "anchors": ["src/rsfile/rsfile_factories.py:parse_standard_args", "src/rsfile/rsfile_factories.py:parse_advanced_args"]}
{"id": "C37", "title": "Creation flags: 'C' never opens an existing file, 'N' never creates one", "statement": "A successful rsopen with must_create semantics means the path did not exist and now names a new empty file; with must_not_create semantics it means the path existed; the set of existing paths changes only by the creation of the opened path; a failed open by existence check changes nothing.", "quantifier": "every filesystem state and every mode", "why_tests_cant": "all filesystem states", "anchors": ["src/rsfile/rsfileio_unix.py:_inner_create_streams", "src/rsfile/rsfile_factories.py:rsopen"]}
{"id": "C38", "title": "Erasing on opening happens only under the lock", "statement": "With locking=True, a file opened with 'w' or 'E' is truncated only after the whole-file exclusive lock was obtained; if the lock cannot be obtained the content of the file is untouched and the call raises.", "quantifier": "every lock outcome sequence, file content and mode", "why_tests_cant": "races between opening, locking and truncation", "anchors": ["src/rsfile/rsfile_factories.py:rsopen"]}
{"id": "C39", "title": "A rejected call has no side effect", "statement": "When rsopen() rejects its arguments with BadValueTypeError, no file has been created, erased or locked and no descriptor was left open.", "quantifier": "every argument combination", "why_tests_cant": "argument combinations unbounded", "anchors": ["src/rsfile/rsfile_factories.py:rsopen", "src/rsfile/rsfileio_abstract.py:__init__"]}
{"id": "C40", "title": "Wrapping an existing descriptor never erases the file", "statement": "rsopen(fileno=fd, mode='w...') and the patched FileIO(fd, 'w') never change the content of the wrapped file.", "quantifier": "every descriptor number and every mode", "why_tests_cant": "special descriptor numbers", "anchors": ["src/rsfile/rsfile_factories.py:rsopen", "src/rsfile/rsfile_utilities.py:RSFileIOWrapper"]}
{"id": "C41", "title": "A failing rsopen() does not leak its descriptor", "statement": "If rsopen() on a path raises after the native open() succeeded (lock refused, not a regular file, bad buffering...), the native descriptor is closed, or queued for closing if the process has locks on that file.", "quantifier": "every failure point", "why_tests_cant": "every failure point must be forced", "anchors": ["src/rsfile/rsfile_factories.py:rsopen", "src/rsfile/rsfileio_unix.py:_inner_create_streams", "src/rsfile/rsfileio_unix.py:_inner_close_streams"]}
{"id": "C42", "title": "Erasing requires write access", "statement": "No successful rsopen() of a path truncates the file unless the stream is writable; asking for 'E' without W/A/C is rejected before anything is opened.", "quantifier": "all mode strings", "why_tests_cant": "all strings", "anchors": ["src/rsfile/rsfile_factories.py:rsopen"]}
{"id": "C43", "title": "Descriptors are inheritable only on request", "statement": "A stream opened from a path is inheritable by child processes iff the advanced mode contains 'I'; the mutex of the thread-safe wrapper is an interprocess one iff the stream is inheritable and the platform can fork (and no mutex was provided).", "quantifier": "all mode strings and platforms", "why_tests_cant": "all strings", "anchors": ["src/rsfile/rsfile_factories.py:rsopen", "src/rsfile/rsfileio_unix.py:_inner_create_streams"]}
{"id": "C44", "title": "Layering decisions of rsopen()", "statement": "buffering=0 yields a raw stream in binary mode and is refused in text mode; otherwise the buffer class follows readability/writability, its size is the given one, or the block size / default size for negative, None and 1; text layer iff not binary; thread-safe wrapper iff requested.", "quantifier": "all argument values", "why_tests_cant": "unbounded integers", "anchors": ["src/rsfile/rsfile_factories.py:rsopen"]}
{"id": "C45", "title": "write_to_file then read_from_file round-trips bytes", "statement": "After write_to_file(name, data) returns, for bytes data and any non-zero buffering, the file contains exactly data (whatever it contained before), and read_from_file(name, binary=True) with any buffering returns exactly data, for every pattern of short reads and writes.", "quantifier": "all data, previous contents, buffer sizes, OS schedules", "why_tests_cant": "schedules and data unbounded", "anchors": ["src/rsfile/rsfile_utilities.py:write_to_file", "src/rsfile/rsfile_utilities.py:read_from_file"]}
{"id": "C46", "title": "write_to_file never silently loses data", "statement": "If write_to_file() returns normally all of the data is in the file, including with buffering=0.", "quantifier": "all data and OS short-write schedules", "why_tests_cant": "short writes are rare (disk full, signals)", "anchors": ["src/rsfile/rsfile_utilities.py:write_to_file"]}
{"id": "C47", "title": "append_to_file appends", "statement": "A sequence of append_to_file(name, d_i) calls leaves the file equal to its previous content followed by the concatenation of the d_i in order; the file is created if missing unless must_not_create.", "quantifier": "all sequences of data", "why_tests_cant": "unbounded sequences", "anchors": ["src/rsfile/rsfile_utilities.py:append_to_file"]}
{"id": "C48", "title": "sync() makes data durable", "statement": "When sync() returns, all bytes written to the stream so far are on stable storage and survive a crash at any later point; with metadata=True a full fsync (or F_FULLFSYNC) has succeeded; write_to_file/append_to_file(sync=True) return only after that.", "quantifier": "every crash point after return, every support pattern of F_FULLFSYNC/fdatasync/fsync", "why_tests_cant": "crash points cannot be tested", "anchors": ["src/rsfile/rsfile_streams.py:sync", "src/rsfile/rsfileio_unix.py:_inner_sync", "src/rsfile/rsfile_utilities.py:write_to_file"]}
{"id": "C49", "title": "Text round-trip", "statement": "write_to_file(name, text) then read_from_file(name) with the same encoding and newline arguments returns text, whenever the codec can encode it and the newline mode is lossless for it.", "quantifier": "all texts, codecs and newline modes", "why_tests_cant": "unbounded texts", "anchors": ["src/rsfile/rsfile_utilities.py:write_to_file", "src/rsfile/rstest/stdlib/_pyio_py313_backup.py:TextIOWrapper"]}
{"id": "C50", "title": "Patched open() never locks by itself", "statement": "The open() installed by the monkey patchers takes no file lock and adds no thread-safe wrapper unless explicitly asked by keyword, and otherwise behaves as rsopen with the same arguments.", "quantifier": "all argument lists", "why_tests_cant": "unbounded", "anchors": ["src/rsfile/rsfile_utilities.py:BUILTIN_OPEN_FUNC_REPLACEMENT"]}
{"id": "C51", "title": "Every public method call on a thread-safe stream runs under its mutex", "statement": "Each call of a public method through RSThreadSafeWrapper executes entirely while the calling thread owns the wrapper's mutex.", "quantifier": "every sequence of attribute accesses and calls", "why_tests_cant": "whether the mutex is held is not observable in single-threaded tests", "anchors": ["src/rsfile/rsfile_streams.py:RSThreadSafeWrapper.__getattr__", "src/rsfile/rsfile_streams.py:RSThreadSafeWrapper._secure_call"]}
{"id": "C52", "title": "Calls that run under the mutex are atomic (serialisable)", "statement": "For any number of threads issuing protected calls, in every interleaving, the state of the wrapped stream is the result of executing the calls one after the other in the order in which they obtained the mutex; the mutex is free when no call is in progress, also when calls raise.", "quantifier": "all schedules", "why_tests_cant": "all schedules", "anchors": ["src/rsfile/rsfile_streams.py:RSThreadSafeWrapper._secure_call"]}
{"id": "C53", "title": "set_rsfile_options() is all-or-nothing", "statement": "set_rsfile_options() with an unknown option name raises ValueError and changes no option; otherwise exactly the named options change; get_rsfile_options() returns an independent copy.", "quantifier": "all option dictionaries", "why_tests_cant": "unbounded", "anchors": ["src/rsfile/rsfile_registries.py:set_rsfile_options", "src/rsfile/rsfile_registries.py:get_rsfile_options"]}
{"id": "C54", "title": "Options are captured at stream creation", "statement": "A stream uses the option values in force when it was created; later changes do not affect it.", "quantifier": "all histories of option changes and stream creations", "why_tests_cant": "all histories", "anchors": ["src/rsfile/rsfileio_abstract.py:__init__"]}
{"id": "C55", "title": "Double-dword conversion round-trips", "statement": "For 0 <= n < 2^(2w): recombining the two words of n gives n, both words are below 2^w; for words below 2^w, splitting their combination gives them back; negative numbers are rejected.", "quantifier": "all n and all word sizes w", "why_tests_cant": "2^64 values", "anchors": ["src/rsfile/rsbackend/_utilities.py:pyint_to_double_dwords", "src/rsfile/rsbackend/_utilities.py:double_dwords_to_pyint"]}
{"id": "C56", "title": "Signed/unsigned conversions are inverse bijections", "statement": "signed_to_unsigned and unsigned_to_signed are inverse of each other on [-2^(w-1), 2^(w-1)) and [0, 2^w).", "quantifier": "all values and word sizes", "why_tests_cant": "2^w values for every w", "anchors": ["src/rsfile/rsbackend/_utilities.py:signed_to_unsigned", "src/rsfile/rsbackend/_utilities.py:unsigned_to_signed"]}
{"id": "C57", "title": "FILETIME/timestamp conversions are inverse (exact arithmetic)", "statement": "Converting a timestamp that is a multiple of 100ns to FILETIME and back gives the same timestamp, and conversely, for the whole 64-bit range.", "quantifier": "all 64-bit FILETIMEs", "why_tests_cant": "2^64 values", "anchors": ["src/rsfile/rsbackend/_utilities.py:win32_filetime_to_python_timestamp", "src/rsfile/rsbackend/_utilities.py:python_timestamp_to_win32_filetime"]}
{"id": "C58", "title": "Windows lock ranges denote the requested bytes", "statement": "The offset/length pair handed to LockFileEx denotes exactly the requested byte range for lengths and offsets below 2^64, through both the ctypes and pywin32 backends; infinity covers every byte a file can have; lock and unlock of the same arguments denote the same range.", "quantifier": "all offsets and lengths", "why_tests_cant": "2^128 pairs", "anchors": ["src/rsfile/rsfileio_windows.py:_win32_convert_file_range_arguments", "src/rsfile/rsbackend/windows_pywin32.py:LockFileEx"]}
{"id": "C59", "title": "winerror mapping is total with EINVAL as default", "statement": "Every windows error code is mapped to a valid C errno, 22 if unknown.", "quantifier": "all integers", "why_tests_cant": "unbounded", "anchors": ["src/rsfile/rsbackend/_utilities.py:winerror_to_errno"]}
{"id": "C60", "title": "The mode attribute reflects the capabilities of the stream", "statement": "mode of an open binary stream is one of rb, rb+, wb, ab, ab+, xb, xb+; it starts with 'a' iff append (and not exclusive creation), 'x' iff exclusive creation, and re-opening with it gives the same readability/writability.", "quantifier": "all streams", "why_tests_cant": "all creation parameters", "anchors": ["src/rsfile/rsfileio_abstract.py:mode"]}
{"id": "C61", "title": "The kernel locks of a process are exactly those of its held locks", "statement": "Outside of lock_file/unlock_file/close calls, a byte of a file is locked in the kernel by a process only if a stream of the process holds a rsfile lock on that byte; no kernel lock survives the lock_file() call that failed or the unlock_file()/close() that released it.", "quantifier": "same histories as C01", "why_tests_cant": "every interleaving of calls, failures and interruptions of any number of streams and processes", "anchors": ["src/rsfile/rsfileio_abstract.py:lock_file", "src/rsfile/rsfileio_unix.py:_inner_file_unlock", "src/rsfile/rsfileio_abstract.py:close"]}
{"id": "C62", "title": "Lock bookkeeping never fails internally", "statement": "No sequence of lock_file, unlock_file and close calls by any threads raises an internal KeyError from the bookkeeping of waiting threads, or makes a system call on a descriptor that rsfile already closed; the bookkeeping of a file is kept as long as a thread is waiting for a lock on it.", "quantifier": "every interleaving of threads and processes", "why_tests_cant": "a deletion of the entry between the start and the end of a wait needs a precise interleaving", "anchors": ["src/rsfile/rsfile_registries.py:register_file_lock", "src/rsfile/rsfile_registries.py:try_deleting_unique_id_entry", "src/rsfile/rsfileio_unix.py:_purge_pending_related_file_descriptors"]}
{"id": "C63", "title": "Non-blocking buffered writes account for every byte", "statement": "On a buffered writer over a file that may accept only a part of the data or answer 'would block', the file and the write buffer together contain exactly the bytes reported as accepted (return value of write, or characters_written of BlockingIOError), in order and once; the buffer never exceeds its size; after a flush that returns, exactly these bytes are in the file.", "quantifier": "all histories of write and flush, all buffer sizes, all answers of the operating system", "why_tests_cant": "every pattern of partial and refused writes", "anchors": ["src/rsfile/rsfile_streams.py:RSBufferedWriter", "src/rsfile/rsfileio_abstract.py:write"]}
{"id": "C64", "title": "readinto of buffered streams fills the caller's buffer with the next bytes of the file", "statement": "readinto(b) on a buffered stream returns the number n of bytes that fit (min of len(b) and the rest of the file), stores the next n bytes of the file at the start of b, leaves the rest of b unchanged, and moves the position by n; readinto1 does the same for at least one byte unless at end of file.", "quantifier": "all histories before the call, all buffer sizes and lengths of b, all patterns of short reads", "why_tests_cant": "combinations of read-ahead, buffer size and length", "anchors": ["src/rsfile/rsfile_streams.py:RSBufferedReader", "src/rsfile/rsfile_streams.py:RSBufferedRandom"]}
{"id": "C65", "title": "Line operations of buffered streams", "statement": "readline() returns the next line with its newline; readlines() and iteration return all following lines, whose concatenation is the rest of the file; readlines(hint) stops at the line that reaches the hint; readline(size) returns at most size bytes of the next line; writelines(lines) stores the concatenation of the lines at the position.", "quantifier": "all histories before the call, all file contents, buffer sizes and patterns of short reads and writes", "why_tests_cant": "lines may cross any number of buffer and short-read boundaries", "anchors": ["src/rsfile/rsfile_streams.py:RSBufferedReader", "src/rsfile/rsfile_streams.py:RSBufferedWriter"]}
{"id": "C66", "title": "A sound call to rsopen() succeeds", "statement": "rsopen(path, mode) with accepted arguments succeeds whenever the existence requirements of the mode hold, the path is a regular file or new, and no system call fails, whatever descriptor number the system assigns; the file then has its previous content (or is empty if new or to be erased) and no other file has changed.", "quantifier": "all accepted modes and arguments, all filesystem states, all descriptor tables", "why_tests_cant": "test runs always have descriptors 0-2 open", "anchors": ["src/rsfile/rsfile_factories.py:rsopen", "src/rsfile/rsfileio_abstract.py:isatty", "src/rsfile/rsfileio_unix.py:_inner_fileno"]}
{"id": "C67", "title": "The utility functions leave nothing open", "statement": "Whatever its outcome, including an exception in the middle, a call of read_from_file(), write_to_file() or append_to_file() leaves no descriptor open and no lock held that was not there before, except for a descriptor whose closing is postponed because other streams of the process hold locks on the file.", "quantifier": "all arguments, all contents and states of the file system, all locks and descriptors of the process, all failures of system calls at any point", "why_tests_cant": "the failure has to hit each system call in turn, in combination with locks of other streams", "anchors": ["src/rsfile/rsfile_utilities.py:read_from_file", "src/rsfile/rsfile_utilities.py:write_to_file", "src/rsfile/rsfile_utilities.py:append_to_file"]}
{"id": "C68", "title": "Text does not depend on chunks", "statement": "The characters that read(), read(n), readline(), and iteration return on a text stream are those of the decoded content, with newlines translated as the newline argument says, cut where the caller asked: they do not depend on the buffer size, on where chunks or short reads end, or on calls such as tell(), size(), flush(), lock_file() made in between.", "quantifier": "all contents that can be decoded, all codecs that satisfy the laws of incremental decoders, all newline modes, buffer sizes, patterns of short reads, histories of calls", "why_tests_cant": "a character or a \\r\\n pair may be split by any chunk boundary; tests use small files and default buffers", "anchors": ["src/rsfile/rsfile_streams.py:RSTextIOWrapper", "src/rsfile/rsfile_streams.py:_text_forwarder_mixin"]}
{"id": "C69", "title": "Positions of text streams", "statement": "tell() on a text stream returns a position (unless lines are being iterated over, when it raises OSError), and seek() to a position that tell() returned makes the following reads return the text that followed when tell() was called.", "quantifier": "all contents that can be decoded, all codecs that satisfy the laws of incremental decoders, all newline modes, buffer sizes, patterns of short reads, histories of calls before and between", "why_tests_cant": "the position is reconstructed by decoding again from a snapshot, with a search that depends on the past ratio of bytes to characters", "anchors": ["src/rsfile/rsfile_streams.py:RSTextIOWrapper", "src/rsfile/rsfile_streams.py:_text_forwarder_mixin._reset_buffers"]}
{"id": "C70", "title": "Locking a text stream makes its data current", "statement": "lock_file() and unlock_file() on a text stream do not move it; after lock_file() the text that is read is that of the file at the time when the lock was granted, not what the stream had read or decoded before.", "quantifier": "all contents before and at the time of the lock, all codecs that satisfy the laws of incremental decoders, all newline modes, buffer sizes, histories of calls", "why_tests_cant": "needs a concurrent change of the file between a read and the lock, at a position whose bytes are decoded together", "anchors": ["src/rsfile/rsfile_streams.py:_text_forwarder_mixin.lock_file", "src/rsfile/rsfile_streams.py:_text_forwarder_mixin._reset_buffers"]}
{"id": "C71", "title": "What is written to a text stream", "statement": "write() on a text stream stores the encoded text, with newlines translated as the newline argument says, at the position of the stream (the one that tell() gives), with a byte order mark only at the start of the file; text that cannot be encoded changes nothing; successive writes are like one write of the joined text.", "quantifier": "all texts, all codecs that satisfy the laws of incremental encoders, all newline modes, buffer sizes, patterns of short writes, histories of write, seek, tell, truncate, flush, sync, lock and unlock calls", "why_tests_cant": "text waits in two layers of buffers, and the place where a buffer is handed over depends on its size and on the history of calls", "anchors": ["src/rsfile/rsfile_streams.py:RSTextIOWrapper", "src/rsfile/rsfile_streams.py:_text_forwarder_mixin"]}
{"id": "C72", "title": "The locking argument decides whether files are locked", "statement": "With locking=False, rsopen() and the utility functions request no lock. With locking=True the utility functions lock the file of the given path before anything of it is read or changed; if the lock is not obtained they raise and no file content has changed.", "quantifier": "all arguments, all filesystem states, all outcomes of system calls and lock requests, all data", "why_tests_cant": "needs an observation of lock requests at every possible failure point", "anchors": ["src/rsfile/rsfile_factories.py:rsopen", "src/rsfile/rsfile_utilities.py:read_from_file", "src/rsfile/rsfile_utilities.py:write_to_file", "src/rsfile/rsfile_utilities.py:append_to_file"]}
{"id": "C73", "title": "What does not write does not change the file", "statement": "Reading, peeking, moving, telling, flushing and asking for the size, on buffered and text streams, do not change what the file will contain: each byte pending before is in its place or still pending, no other byte of the file changes, nothing is locked, unlocked or closed, whatever these calls return or raise.", "quantifier": "all states of open streams, all histories of such calls, all answers of the system (short counts, errors, would-block)", "why_tests_cant": "the calls flush in between, and may be interrupted by an error at any byte", "anchors": ["src/rsfile/rsfile_streams.py:_buffer_forwarder_mixin", "src/rsfile/rsfile_streams.py:_text_forwarder_mixin", "src/rsfile/rstest/stdlib/_pyio_py313_backup.py:BufferedRandom"]}
{"id": "C74", "title": "Line-buffered text streams hand over complete lines", "statement": "When write() of a text that contains the end of a line returns on a line-buffered text stream, all text written so far has been handed over to the operating system, without any flush().", "quantifier": "all texts, codecs, newline modes, histories of writing calls, buffer sizes, short writes", "why_tests_cant": "depends on the position of newlines relative to buffer boundaries", "anchors": ["src/rsfile/rsfile_factories.py:rsopen", "src/rsfile/rsfile_streams.py:RSTextIOWrapper"]}
{"id": "C75", "title": "Critical sections lose no update", "statement": "If every program uses its buffered streams on a file only between lock_file() and unlock_file(), and writes only under exclusive locks, all calls of all programs return what they would return on one common byte array with a position for each stream, in the order in which they were made; and whenever nobody holds an exclusive lock, the file has that content.", "quantifier": "any number of processes, streams of any buffer size, calls and interleavings, short reads and writes", "why_tests_cant": "the interleavings of several processes with the states of their buffers are unbounded", "anchors": ["src/rsfile/rsfile_streams.py:_buffer_forwarder_mixin", "src/rsfile/rsfileio_abstract.py:lock_file", "src/rsfile/rsfileio_abstract.py:unlock_file"]}
{"id": "C76", "title": "On windows a lock keeps the conflicting locks of all other streams away", "statement": "With the windows backend, while a stream holds a lock on a byte range, no other stream, in the same or in another process, holds an exclusive lock on any byte of that range; the lock stays in the kernel until the stream releases it, whatever other streams lock, unlock, open or close.", "quantifier": "every history of open, wrapping and inheriting of handles, lock_file (blocking, non-blocking, failing, retried, interrupted), unlock_file, close and process exit, by any number of processes, threads and streams, in every interleaving", "why_tests_cant": "the test suite runs only the interleavings that happen to occur, on the platform at hand", "anchors": ["src/rsfile/rsfileio_windows.py:425-478", "src/rsfile/rsfileio_windows.py:188-213", "src/rsfile/rsfileio_abstract.py:207-227", "src/rsfile/rsfileio_abstract.py:534-662"]}
{"id": "C77", "title": "On windows the kernel has exactly the locks that are held", "statement": "When no unlock_file() or close() call is in progress, every byte range lock that the system has on behalf of a process is that of a lock held by one of its open streams, in its mode and with its bytes only, and every held lock is there exactly once; so a lock that conflicts with no held lock is granted.", "quantifier": "every history of opens, locks, unlocks, closes and exits of any number of processes, threads and streams, in every interleaving", "why_tests_cant": "the interleavings of processes and threads and the points where a call may fail are unbounded; the test suite runs on the platform at hand", "anchors": ["src/rsfile/rsfileio_abstract.py:597-638", "src/rsfile/rsfileio_abstract.py:207-227", "src/rsfile/rsfileio_windows.py:444-478"]}
{"id": "C78", "title": "On windows unlock_file() succeeds exactly if the stream holds the lock", "statement": "unlock_file(length, offset) returns if the stream holds a lock with exactly this range, and raises otherwise; a call that raised can be repeated.", "quantifier": "every history of calls of any number of processes, threads and streams, in every interleaving", "why_tests_cant": "the interleavings of processes and threads and the points where a call may fail are unbounded; the test suite runs on the platform at hand", "anchors": ["src/rsfile/rsfileio_abstract.py:640-662", "src/rsfile/rsfileio_windows.py:470-478"]}
{"id": "C79", "title": "On windows close() closes the native handle", "statement": "After close() of a stream opened with closefd=True its native handle is closed, whatever locks it held; a handle opened with closefd=False stays open.", "quantifier": "every history of calls of any number of processes, threads and streams, in every interleaving", "why_tests_cant": "the interleavings of processes and threads and the points where a call may fail are unbounded; the test suite runs on the platform at hand", "anchors": ["src/rsfile/rsfileio_abstract.py:207-227", "src/rsfile/rsfileio_windows.py:192-213"]}
{"id": "C80", "title": "On windows no system call is made on a handle that is not open", "statement": "Locking, unlocking and closing use no handle that has been closed.", "quantifier": "every history of calls of any number of processes, threads and streams, in every interleaving, with failing system calls and interrupts", "why_tests_cant": "the interleavings of processes and threads and the points where a call may fail are unbounded; the test suite runs on the platform at hand", "anchors": ["src/rsfile/rsfileio_abstract.py:207-227", "src/rsfile/rsfileio_abstract.py:534-662"]}
{"id": "C81", "title": "On windows lock_file() raises RuntimeError exactly for bytes that the stream has locked itself", "statement": "lock_file() raises before any system call if and only if the stream itself holds a lock on a byte of the requested range; locks of other streams of the process are left to the system.", "quantifier": "every history of calls of any number of processes, threads and streams, in every interleaving, all ranges", "why_tests_cant": "the interleavings of processes and threads and the points where a call may fail are unbounded; the test suite runs on the platform at hand", "anchors": ["src/rsfile/rsfileio_abstract.py:597-620", "src/rsfile/rsfile_registries.py:107-142", "src/rsfile/rsfileio_windows.py:188-189"]}
{"id": "C82", "title": "On windows opening a path honours the existence, access and inheritance flags", "statement": "A call that must create its file and succeeds has created a new empty regular file; one that must not create opens the file the path named; a call whose requirement fails, or that names a directory, fails and changes nothing; no other path appears or disappears. The handle of the stream is new and has exactly the read, write, inheritance and write-through attributes that the mode asks for.", "quantifier": "every mode string and combination of arguments, every state of the file system and of the tables of handles and descriptors, every failure of a system call", "why_tests_cant": "the states of the file system, the mode strings and the points where a system call fails are unbounded; the windows backend does not run on the platform of the tests", "anchors": ["src/rsfile/rsfile_factories.py:207-341", "src/rsfile/rsfileio_abstract.py:70-196", "src/rsfile/rsfileio_windows.py:81-189"]}
{"id": "C83", "title": "On windows opening with locking erases a file only under its lock", "statement": "With locking, the file is truncated only after the new stream has locked it and before it is closed, and a returned stream of a regular file holds the lock; a call changes the content of a file only if the mode asks for it and only of the file of its path, which is then empty.", "quantifier": "every mode string and combination of arguments, every state of the file system and of the tables of handles and descriptors, every failure of a system call", "why_tests_cant": "the states of the file system, the mode strings and the points where a system call fails are unbounded; the windows backend does not run on the platform of the tests", "anchors": ["src/rsfile/rsfile_factories.py:207-341", "src/rsfile/rsfileio_abstract.py:70-196", "src/rsfile/rsfileio_windows.py:81-189"]}
{"id": "C84", "title": "On windows no handle and no lock outlives its stream", "statement": "A call for a path that fails leaves the handles and locks of the process as they were; so does closing the stream that a successful call returned, and that close succeeds.", "quantifier": "every mode string and combination of arguments, every state of the file system and of the tables of handles and descriptors, every failure of a system call", "why_tests_cant": "the states of the file system, the mode strings and the points where a system call fails are unbounded; the windows backend does not run on the platform of the tests", "anchors": ["src/rsfile/rsfile_factories.py:207-341", "src/rsfile/rsfileio_abstract.py:70-196", "src/rsfile/rsfileio_abstract.py:207-227", "src/rsfile/rsfileio_windows.py:192-213"]}
{"id": "C85", "title": "On windows opening and closing a path uses up no descriptor of the C library", "statement": "After a failed call for a path, or after closing the stream it returned, the table of the C runtime descriptors is what it was before the call.", "quantifier": "every mode string and combination of arguments, every state of the file system and of the tables of handles and descriptors, every failure of a system call", "why_tests_cant": "the states of the file system, the mode strings and the points where a system call fails are unbounded; the windows backend does not run on the platform of the tests", "anchors": ["src/rsfile/rsfileio_windows.py:165-189", "src/rsfile/rsfileio_windows.py:192-213", "src/rsfile/rsfileio_windows.py:280-303"]}
{"id": "C86", "title": "On windows a sound call that the system allows succeeds", "statement": "If the arguments are consistent, the existence of the path is as required, the path names no special file and no system call fails, then the call returns a stream; the file has its old content unless it was to be erased, and no other file changes.", "quantifier": "every mode string and combination of arguments, every state of the file system and of the tables of handles and descriptors, every failure of a system call", "why_tests_cant": "the states of the file system, the mode strings and the points where a system call fails are unbounded; the windows backend does not run on the platform of the tests", "anchors": ["src/rsfile/rsfile_factories.py:207-341", "src/rsfile/rsfileio_abstract.py:70-196", "src/rsfile/rsfileio_windows.py:81-189"]}
{"id": "C87", "title": "On windows wrapping a handle honours closefd and touches no other handle", "statement": "A call that wraps a native handle or a C descriptor opens no handle. With closefd=False neither the call nor closing the stream closes any handle; with closefd=True closing the stream closes the wrapped handle and no other, and a failing call closes at most this one. The locks of other handles are kept and none is left behind. A descriptor that is not open is refused and nothing changes; the descriptor of a directory is refused and not closed, whatever closefd, unless the probe for non-blocking pipes comes first (python 3.12 or later, stream open for writing).", "quantifier": "every mode string and combination of arguments, every state of the tables of handles and descriptors, every failure of a system call", "why_tests_cant": "the mode strings, the states of the tables and the points where a system call fails are unbounded; the windows backend does not run on the platform of the tests", "anchors": ["src/rsfile/rsfile_factories.py:207-341", "src/rsfile/rsfileio_abstract.py:165-227", "src/rsfile/rsfileio_windows.py:96-213"]}
{"id": "C88", "title": "On windows wrapping never erases a file", "statement": "A call that wraps a native handle or a C descriptor creates no file and changes no content, whatever the mode.", "quantifier": "every mode string and combination of arguments, every state of the tables of handles and descriptors, every failure of a system call", "why_tests_cant": "the mode strings, the states of the tables and the points where a system call fails are unbounded; the windows backend does not run on the platform of the tests", "anchors": ["src/rsfile/rsfile_factories.py:207-341", "src/rsfile/rsfileio_abstract.py:165-227", "src/rsfile/rsfileio_windows.py:96-213", "src/rsfile/rsfile_factories.py:250-256"]}
{"id": "C89", "title": "On windows wrapping uses up no descriptor of the C library", "statement": "After wrapping a handle or a descriptor and closing the stream, the table of C runtime descriptors is what it was before, except that with closefd=True the wrapped descriptor is gone.", "quantifier": "every mode string and combination of arguments, every state of the tables of handles and descriptors, every failure of a system call", "why_tests_cant": "the mode strings, the states of the tables and the points where a system call fails are unbounded; the windows backend does not run on the platform of the tests", "anchors": ["src/rsfile/rsfileio_windows.py:96-213", "src/rsfile/rsfileio_windows.py:280-303", "src/rsfile/rsfile_factories.py:290-310"]}
{"id": "C90", "title": "Streams in append mode lose and overwrite nothing (unix)", "statement": "If all streams that write to a file are in append mode and nobody truncates it, the file only grows at its end. It consists of what it contained at the start and of pieces handed over by the streams; the pieces of one stream, in order, are the beginning of the bytes that its write() calls reported as accepted, and the rest is still in its buffer. When all streams were closed without an error, the pieces of each stream are all that was accepted from it.", "quantifier": "any number of processes and buffered streams, any buffer sizes, any interleaving of calls including reads, seeks, locks and ends of processes, every pattern of short counts, refusals and errors of the OS", "why_tests_cant": "the interleavings of calls, the buffer fill levels and the answers of the OS are unbounded; a loss shows only when a short write or an error meets a particular order", "anchors": ["src/rsfile/rsfile_streams.py:33-57", "src/rsfile/rsfileio_unix.py:269-272", "src/rsfile/rsfileio_unix.py:96-150", "src/rsfile/rstest/stdlib/_pyio_py313_backup.py:BufferedWriter", "src/rsfile/rstest/stdlib/_pyio_py313_backup.py:BufferedRandom"]}
{"id": "C91", "title": "On windows a raw write stores its data at the position", "statement": "On windows, write(data) on a raw stream that is not in append mode stores a prefix of the data at the current position, non-empty if the data is, leaves all other bytes as they were, fills a gap between the old end and the position with zeros, advances the position by the number of bytes it returns, and never returns None when the system does not refuse.", "quantifier": "every file content, position, data and pattern of short counts of WriteFile; any content of gaps", "why_tests_cant": "contents, positions and short counts are unbounded; what the system puts in a gap depends on the file system", "anchors": ["src/rsfile/rsfileio_windows.py:388-421", "src/rsfile/rsfileio_windows.py:225-236"]}
{"id": "C92", "title": "Both backends give the same results", "statement": "A buffered or text stream over the windows backend returns the same results, raises the same errors and leaves the same bytes in the file as one over the unix backend, for the same history of calls and the same answers of the system.", "quantifier": "every history of calls, all buffer sizes, codecs and newline modes, every pattern of short counts, refusals and errors", "why_tests_cant": "the histories and the answers of the system are unbounded, and no test runs both backends side by side", "anchors": ["src/rsfile/rsfileio_windows.py:225-421", "src/rsfile/rsfileio_unix.py:96-290", "src/rsfile/rsfile_streams.py:33-110"]}
{"id": "C93", "title": "On windows streams are a byte array, or a text, with a position", "statement": "On windows a buffered stream behaves like a byte array with a position (C23), a text stream that is read like the decoded text of the file (C68, C69), and texts that are written stand in the file like one encoded text (C71).", "quantifier": "every history of calls, all buffer sizes, codecs and newline modes, every pattern of short reads and writes", "why_tests_cant": "the histories, sizes and patterns of short transfers are unbounded", "anchors": ["src/rsfile/rsfileio_windows.py:225-421", "src/rsfile/rsfile_streams.py:33-110", "src/rsfile/rstest/stdlib/_pyio_py313_backup.py:BufferedRandom", "src/rsfile/rstest/stdlib/_pyio_py313_backup.py:TextIOWrapper"]}
{"id": "C94", "title": "Streams in append mode lose and overwrite nothing (windows)", "statement": "On windows, if all streams that write to a file are in append mode and nobody truncates it, the file is what it was at the start followed by the pieces that write() calls reported as written, in some order.", "quantifier": "any number of processes and streams, any interleaving of their system calls, every pattern of short counts, refusals and errors of the system", "why_tests_cant": "the loss needs another process to write between two system calls of one write(); the interleavings and the answers of the system are unbounded", "anchors": ["src/rsfile/rsfileio_windows.py:388-421", "src/rsfile/rsfileio_abstract.py:415-454"]}
{"id": "C95", "title": "times() and unique_id() use up no descriptor (windows)", "statement": "On windows, times() and unique_id() of an open stream may be called any number of times: they leave the table of descriptors of the C library as it was.", "quantifier": "both backends (pywin32, ctypes), every state of the process, every sequence of calls, every pattern of failures of the system", "why_tests_cant": "a test calls them a few times, the table has 8192 entries; what is lost shows up elsewhere, as an unrelated open() that fails", "anchors": ["src/rsfile/rsbackend/windows_pywin32.py:65-95", "src/rsfile/rsbackend/windows_ctypes.py:98-106", "src/rsfile/rsfileio_windows.py:264-277", "src/rsfile/rsfileio_windows.py:307-326"]}
{"id": "C96", "title": "Wrapping a descriptor honours closefd (unix)", "statement": "On unix, a call that wraps a descriptor opens no descriptor. With closefd=False neither a failure of the call nor close() of the stream closes the descriptor. With closefd=True close() closes it, at once or, while other streams of the process have locks on the file, when the last of these locks is given up. No other descriptor is closed, except those of the file that were waiting for this, and the locks of other streams stay. A descriptor that is not open is refused without any effect.", "quantifier": "every call of rsopen with a descriptor in name, fileno or handle, every state of the process and the files, every pattern of failures of the system", "why_tests_cant": "the outcome depends on the failures of each system call, on the locks and on the postponed descriptors of the whole process", "anchors": ["src/rsfile/rsfileio_unix.py:94-192", "src/rsfile/rsfileio_abstract.py:60-150", "src/rsfile/rsfile_factories.py:241-341"]}
{"id": "C97", "title": "Buffered reading loses, repeats and reorders nothing, whatever the system answers", "statement": "As long as no system call fails, read, read1, readline and readlines of a buffered stream return the bytes of the file or pipe in order, none left out and none twice, and peek the ones that come next, however many bytes each system call returns and however often it says that there is nothing for now (non-blocking streams) or that the other end is closed. No call returns more than was asked for, and less only if there is no more or if the last answer of the system was one of these; None means that there is nothing for now. The only exception raised is ValueError for a size below -1.", "quantifier": "every content and position, both platforms, seekable or not, every buffer size, every sequence of calls and sizes, every pattern of answers of the system without failures", "why_tests_cant": "tests use regular files, where short counts and would-block answers do not occur; their patterns and the sequences of calls are unbounded", "anchors": ["src/rsfile/rsfile_streams.py:RSBufferedReader", "src/rsfile/rsfile_streams.py:RSBufferedRandom", "src/rsfile/rsfileio_abstract.py:354-413", "src/rsfile/rsfileio_unix.py:245-255", "src/rsfile/rsfileio_windows.py:355-368"]}
{"id": "C98", "title": "A text stream that is read and written behaves like one file", "statement": "On a text stream opened for reading and writing, reading and writing may alternate in any order if a seek to an offset, to the end or to the present position stands between them: what is written is stored at the offset of the stream in the encoding of the stream, and what is read is the decoded text of the content that the file then has, including what the same stream has written and not flushed yet. Positions found while reading stay valid until something is written. What was written to an empty file is read again after seek(0), and it is the text itself exactly if the newline mode is lossless for it; and what was written after a tell() is read again after going back to that position. A seek to an offset or to the end repairs whatever went wrong before.", "quantifier": "every codec with lawful incremental encoder and decoder, every newline mode, buffer size, content and offset, every pattern of short reads and writes, every sequence of calls", "why_tests_cant": "the text decoder, the encoder, the read buffer and the write buffer each keep their own state, and whether they agree after a movement depends on the whole history", "anchors": ["src/rsfile/rsfile_streams.py:RSTextIOWrapper", "src/rsfile/rsfile_streams.py:RSBufferedRandom", "src/rsfile/rsfileio_abstract.py:354-413"]}
{"id": "C99", "title": "A system call that fails is reported to the caller", "statement": "Every method of a raw stream (read, readall, readinto, write, seek, tell, size, truncate, sync, unique_id, times, fileno, close), on unix and on windows with either backend (ctypes, pywin32), ends at the first system call that fails, and raises an OSError that carries the errno of this failure: the one of the C library, or the one that stands for the windows error code. The exception types of the backends do not reach the caller, and no failure is swallowed. Only three kinds of failures are no errors: a read that finds the other end of the pipe closed returns b'', a read or write that would have to wait returns None, and windows answers that say that the operation goes on. Without a failing call a method raises only its own exceptions (closed stream, wrong mode, bad argument). Both backends of windows then behave alike.", "quantifier": "every method, every backend, every sequence of answers and failure codes of the system, every table of error numbers of the interpreter", "why_tests_cant": "failures of single system calls in the middle of an operation cannot be provoked in a test, and the second backend of windows is usually not installed", "anchors": ["src/rsfile/rsfileio_windows.py:39-78", "src/rsfile/rsfileio_windows.py:195-423", "src/rsfile/rsfileio_unix.py:25-43", "src/rsfile/rsfileio_unix.py:145-272", "src/rsfile/rsfileio_abstract.py:314-511", "src/rsfile/rsbackend/_utilities.py:winerror_to_errno"]}
{"id": "C100", "title": "Reading text loses, repeats and reorders nothing, whatever the system answers", "statement": "As long as no system call fails, read, readline and iteration of a text stream return the decoded content of the file or pipe in order, no character left out and none twice, with newlines as the newline argument says, however many bytes each system call returns and however often it says that there is nothing for now (non-blocking streams) or that the other end is closed. A call returns exactly the characters or the line asked for, or the last answer of the system was one of these. Nothing is raised, or at least nothing is lost by an exception.", "quantifier": "every content that can be decoded, every position, every codec with a lawful incremental decoder, every newline mode, both platforms, seekable or not, every buffer size, every sequence of calls and sizes, every pattern of answers of the system without failures", "why_tests_cant": "tests use regular files, where would-block answers do not occur; where they fall, in a character or between \\r and \\n, is a matter of timing", "anchors": ["src/rsfile/rsfile_streams.py:RSTextIOWrapper", "src/rsfile/rsfile_streams.py:RSBufferedReader", "src/rsfile/rstest/stdlib/_pyio_py313_backup.py:TextIOWrapper", "src/rsfile/rsfileio_unix.py:245-255", "src/rsfile/rsfileio_windows.py:355-368"]}
{"id": "C101", "title": "Writing text on a non-blocking stream can be resumed", "statement": "When the file does not accept all data at once, write() of a text stream either returns, and then its whole text (with newlines as the newline argument says, encoded) is in the file or pending; or it raises BlockingIOError, and characters_written is the number of characters that were accepted, so that write(s[n:]) continues; any other exception means that the text cannot be encoded and nothing of it was accepted. flush() either returns, and then exactly the accepted text is in the file, in order and once, or raises BlockingIOError and loses nothing.", "quantifier": "every codec, newline mode and line buffering, append mode or not, seekable or not, every buffer size, every sequence of writes and flushes, every pattern of partial transfers and would-block answers of a unix file", "why_tests_cant": "would-block answers need a full pipe and depend on timing; the tests write text only to regular files, where everything is accepted", "anchors": ["src/rsfile/rsfile_streams.py:RSTextIOWrapper", "src/rsfile/rsfile_streams.py:RSBufferedWriter", "src/rsfile/rstest/stdlib/_pyio_py313_backup.py:TextIOWrapper", "src/rsfile/rstest/stdlib/_pyio_py313_backup.py:BufferedWriter", "src/rsfile/rsfileio_unix.py:262-271"]}
{"id": "C102", "title": "Nobody waits for ever for the lock registry", "statement": "The thread that owns the registry mutex releases it after finitely many steps of its own, whatever other threads and processes do and whatever locks they hold. Hence close() and unlock_file() complete, and lock_file() with a timeout ends (granted, or LockingException) once its time is over, without waiting for any lock, thread or process other than the owner of the mutex; also in processes created by fork() at any moment.", "quantifier": "every execution of any number of processes, threads, streams, forks and exits; every state in it, every registry content, every lock held by others", "why_tests_cant": "a deadlock depends on the interleaving of threads and on the moment of fork(); the tests fork only while no other thread is inside a lock operation", "anchors": ["src/rsfile/rsfile_registries.py:IntraProcessLockRegistryClass", "src/rsfile/rsfileio_abstract.py:207-227", "src/rsfile/rsfileio_abstract.py:597-638", "src/rsfile/rsfileio_abstract.py:641-662", "src/rsfile/rsfileio_unix.py:46-60", "src/rsfile/rsfileio_unix.py:144-153"]}
{"id": "C103", "title": "Leaving a with block or forgetting a stream closes it", "statement": "A stream that is used in a with statement, or that becomes unreachable without close(), ends as if close() had been called: its locks and its descriptor are released exactly once, at a moment when all data accepted by write() is in the file. This holds however the with block ends; an exception of the block is raised again unless close() raises one itself. A stream that is closed already is not touched.", "quantifier": "every codec, every kind of buffered stream, every state of the buffers, every with block, every order in which the interpreter finalises the text, buffered and raw objects, every answer of a unix system", "why_tests_cant": "the order of finalisation depends on reference cycles and on the age of the objects; the tests only look for resource warnings", "anchors": ["src/rsfile/rsfileio_abstract.py:207-242", "src/rsfile/rsfile_streams.py:128-148", "src/rsfile/rstest/stdlib/_pyio_py313_backup.py:404-418", "src/rsfile/rstest/stdlib/_pyio_py313_backup.py:482-489", "src/rsfile/rstest/stdlib/_pyio_py313_backup.py:2169-2174"]}
{"id": "C104", "title": "Line operations of unbuffered streams", "statement": "On an unbuffered readable stream readline(size) returns exactly the next line, or its first size bytes if it is longer, and moves the position behind what it returned; readlines() and iteration deliver the lines of the rest of the file, with a positive hint up to the line that reaches it. Whatever the system answers, what is returned is the next part of the file and nothing is skipped or returned twice. writelines(lines) stores the lines one after the other at the position (at the end in append mode). On a closed stream they raise ValueError.", "quantifier": "every content, position, size and hint, every list of lines, both platforms, every sequence of answers of the operating system", "why_tests_cant": "short transfers and would-block answers in the middle of a line depend on the system; tests of line reading use buffered streams", "anchors": ["src/rsfile/rsfileio_abstract.py:372-454", "src/rsfile/rstest/stdlib/_pyio_py313_backup.py:512-590"]}
{"id": "C105", "title": "Writing to a text stream discards what was read ahead", "statement": "On a text stream that is open for reading and writing, a write() that returns stores the encoded text at the place of the underlying buffered stream and discards the characters that were decoded before and not delivered yet. Reading then goes on directly behind the stored bytes, whether they have been flushed or not: no character that was read ahead before the write is delivered after it, and none that follows the stored text is skipped.", "quantifier": "every codec with lawful decoder and encoder, every newline mode, buffer size and pattern of short transfers, every history of calls before the write, every history of calls that do not write after it", "why_tests_cant": "whether stale characters survive depends on the internal snapshot, that is on which of the reading methods was used before; tests seek between reading and writing", "anchors": ["src/rsfile/rsfile_streams.py:128-148", "src/rsfile/rstest/stdlib/_pyio_py313_backup.py:2190-2212", "src/rsfile/rstest/stdlib/_pyio_py313_backup.py:2260-2300", "src/rsfile/rstest/stdlib/_pyio_py313_backup.py:2507-2636"]}
{"id": "C106", "title": "Methods of an inner stream called through the outer one act at the outer position", "statement": "Buffered and text streams offer methods that they do not define and that are looked up on the stream below: readall() on a buffered stream; read1(), peek() and readall() on a text stream. Such a method acts at the position of the stream on which it is called: buffered.readall() returns all bytes from that position to the end of the content written so far and leaves the position at the end; a method of the buffered stream called on a text stream returns the bytes that follow the text delivered so far. No byte is skipped, delivered out of order or stored at another place than where it was written.", "quantifier": "every kind of buffered stream, every buffer size and pattern of short transfers, every history of calls mixing own and forwarded methods; for text streams every codec, newline mode and history", "why_tests_cant": "whether the call is right depends on what happens to be buffered, that is on the sizes of all earlier reads and writes relative to the buffer size; the test-suite calls these methods on fresh streams only", "anchors": ["src/rsfile/rsfile_streams.py:69-74", "src/rsfile/rsfile_streams.py:105-115", "src/rsfile/rsfileio_abstract.py:354-370"]}
{"id": "C107", "title": "Text streams that take turns by locking the file see and keep each other's text", "statement": "Several text streams, of one or several processes, are open for reading and writing on the same file, and each is used only between lock_file (exclusive) and unlock_file. Then a stream that holds the lock behaves as if it were alone: what it reads is the decoded content that the file has at that time, including all that other streams wrote before they called unlock_file, whatever it had read ahead or decoded earlier; what it writes is in the file, completely and once, when unlock_file returns; a stream without the lock never changes the file, not even by calling lock_file, by close() or at the end of its process. In particular, if every section seeks to the end and writes one text, the file finally consists of the old content and all texts in the order of the locks.", "quantifier": "all numbers of processes and streams, all codecs and newline modes, buffer sizes and patterns of short transfers, all interleavings of calls with calls of lock_file that wait", "why_tests_cant": "requires several processes with stale decoder snapshots, read-ahead and pending text at the time another one acquires the lock; the interleavings are unbounded", "anchors": ["src/rsfile/rsfile_streams.py:43-58", "src/rsfile/rsfile_streams.py:77-101", "src/rsfile/rsfileio_abstract.py:567-707"]}
{"id": "C108", "title": "Threads that share a thread-safe buffered stream work on one byte array, and do not block each other", "statement": "When any number of threads call methods of a buffered stream through RSThreadSafeWrapper, all results are those of one byte array with one position, for some order of the calls that agrees with the order in which they were served, and after a flush the file has the content of that array. A call that is told not to wait (lock_file(timeout=0)) or that has nothing to wait for (close()) is served after a bounded number of steps. Iterating over the stream in several threads delivers every line to one thread.", "quantifier": "all numbers of threads, all schedules, all decompositions of methods into atomic actions, all buffer sizes and patterns of short transfers", "why_tests_cant": "all schedules; the waiting needs another process that holds the lock", "anchors": ["src/rsfile/rsfile_streams.py:150-203", "src/rsfile/rsfileio_abstract.py:534-638"]}
{"id": "C109", "title": "Writes to a synchronized stream are on the device when they return", "statement": "A stream opened with the flag S has a synchronized descriptor (O_SYNC), and no other stream has. When write() on such a stream returns, the bytes that it counts, and everything written before, are on the device, and survive a crash at any later time. For buffered and text streams this holds when flush() has returned, and for line-buffered text streams when a line was written.", "quantifier": "all modes, all histories of calls that neither cut the file nor wait for a lock, all patterns of short and failing writes, all later events, all contents that a crash can leave", "why_tests_cant": "crashes of the machine; all histories", "anchors": ["src/rsfile/rsfileio_unix.py:97-120", "src/rsfile/rsfile_factories.py:154-158", "src/rsfile/rsfile_factories.py:414-454", "src/rsfile/rsfileio_abstract.py:415-454"]}
{"id": "C110", "title": "Concurrent calls of the utility functions are atomic", "statement": "When threads of several processes call read_from_file, write_to_file and append_to_file on one file with locking=True (the default), the results and the content of the file are as if the calls had been made one after the other, each at the moment when it ends: a read returns what the last write or append left, never a file that is being rewritten; no appended data is lost. A call that cannot get the lock changes nothing; of a call whose process is killed only the beginning of its own changes is seen.", "quantifier": "all numbers of processes, threads and calls, all interleavings of their actions, other streams with locks, forks and killed processes, all contents, encodings, newline modes, buffer sizes and answers of the system", "why_tests_cant": "all interleavings; processes that are killed at any moment", "anchors": ["src/rsfile/rsfile_utilities.py:86-222", "src/rsfile/rsfile_factories.py:275-341", "src/rsfile/rsfileio_abstract.py:543-638", "src/rsfile/rsfileio_abstract.py:190-196"]}
{"id": "C111", "title": "Record locking on buffered streams", "statement": "When several buffered streams, in any number of processes, hold locks on ranges of bytes of one file at the same time, and each of them reads only bytes that it has locked and writes only bytes of the file that it has locked exclusively, then all calls return what they would return on one common array of bytes with a position per stream, although every stream reads ahead and keeps back bytes beyond its range: no read returns a byte as it was before the lock, no flush overwrites a byte of another stream, and the bytes that nobody has locked exclusively are in the file.", "quantifier": "all numbers of streams and processes, all interleavings, all sequences of read, readline, peek, write, seek, tell, flush, size, lock_file, unlock_file, with-blocks (flushed), close and killed processes, all ranges, contents, buffer sizes and short reads and writes", "why_tests_cant": "all interleavings of streams with all buffer states; stale read-ahead shows only when another stream writes between a read and the next lock", "anchors": ["src/rsfile/rsfile_streams.py:_buffer_forwarder_mixin", "src/rsfile/rsfileio_abstract.py:543-638"]}
{"id": "C112", "title": "Lock ranges relative to the position or the end of a stream", "statement": "lock_file(length, offset, whence) and unlock_file(length, offset, whence) on a buffered or text stream concern the bytes that start at offset, counted from the beginning, from the position of that stream, or from the end of the file including what was written to the stream, whatever the stream has read ahead or not yet handed over.", "quantifier": "all kinds of buffered streams, buffer sizes, contents, short transfers and histories of calls, all offsets, lengths and SEEK_ values; for text streams all lawful codecs, newline modes and histories of reads", "why_tests_cant": "the range is resolved by the raw stream, whose position and size differ from those of the outer stream by what happens to be buffered", "anchors": ["src/rsfile/rsfile_streams.py:35-57", "src/rsfile/rsfile_streams.py:77-101", "src/rsfile/rsfileio_abstract.py:513-565"]}
{"id": "C113", "title": "The descriptor that an opener returns belongs to the stream", "statement": "rsopen(name, mode, opener=f) behaves as if f had been called before and its result had been wrapped with the same mode and options; f is not called if the types of the arguments, the mode or a descriptor given besides are wrong, and its exceptions are passed on. The stream works with the descriptor that f returned, and close() closes it (at once, or when the last lock of others on the file is given up) and no other. If the call fails after f returned a descriptor, that descriptor is closed.", "quantifier": "every opener that returns an integer or raises, with any effect, all arguments, all states of the process and the files, all failures of the system", "why_tests_cant": "an opener may do anything; each of the checks that follow it may fail and leave its descriptor open", "anchors": ["src/rsfile/rsfile_factories.py:240-272", "src/rsfile/rsfileio_abstract.py:165-196"]}
{"id": "C114", "title": "Critical sections on several buffered streams on windows", "statement": "On windows, programs that use their buffered streams on one file only between lock_file() and unlock_file(), and change the file only under an exclusive lock, see one byte array with a position for each stream, whatever the interleaving: what is read is what was last written by whichever stream, no update is lost, and when nobody holds an exclusive lock the array is the file. Streams of one process may share a lock.", "quantifier": "any number of streams and processes, all interleavings of calls and of lock grants, all buffer sizes, all contents, all patterns of short reads and writes", "why_tests_cant": "interleavings of several processes, buffers and lock grants are unbounded, and the windows backend differs from the one tests usually run on", "anchors": ["src/rsfile/rsfile_streams.py:29-57", "src/rsfile/rsfileio_windows.py:188-260"]}
{"id": "C115", "title": "reconfigure() changes the settings of a text stream and nothing else", "statement": "reconfigure() on a text stream writes out what is pending and changes the settings it is given. Text written before keeps its bytes and text written afterwards is encoded, with newlines translated, as the new settings say, without a byte order mark in the middle; the position, and the text that remains to be read, stay. Right after opening it is the same as opening with the new settings. Once text was read, the encoding and the newlines are fixed: reconfigure() refuses to change them and changes nothing.", "quantifier": "all codecs, all settings, any number of calls of reconfigure, all histories of calls before, between and after them, all buffer sizes and patterns of short reads and writes", "why_tests_cant": "the state that must survive (decoder, decoded characters, encoder, buffers) depends on the whole history of calls and on how the system cuts reads into chunks", "anchors": ["src/rsfile/rsfile_streams.py:146-147", "src/rsfile/rstest/stdlib/_pyio_py313_backup.py:2038-2063", "src/rsfile/rstest/stdlib/_pyio_py313_backup.py:2111-2152"]}
{"id": "C116", "title": "Threads that share thread-safe streams and lock one range at a time never block each other for ever", "statement": "Threads of one process share thread-safe streams on any files. Each thread takes a lock only when it has none and removes the locks that it has taken. Then, whatever calls are under way, all of them can end and all locks can be removed: no set of threads waits for each other for ever on the mutexes of the streams and on file locks.", "quantifier": "any number of threads, streams and files, all ranges, shared and exclusive locks, with and without timeouts, all interleavings", "why_tests_cant": "a deadlock needs a particular interleaving of several threads, and its absence is a statement about all of them", "anchors": ["src/rsfile/rsfile_streams.py:170-186", "src/rsfile/rsfile_registries.py:107-194", "src/rsfile/rsfileio_abstract.py:526-532", "src/rsfile/rsfileio_abstract.py:563-626"]}
{"id": "C117", "title": "Processes that inherit a stream through fork work on one file with one position", "statement": "Processes that have inherited a stream with a multiprocessing mutex through fork call its methods, one at a time. The results, and the bytes in the file, are those of the same calls, in the same order, on one stream in one process.", "quantifier": "all numbers of processes, all moments at which they are made, all sequences of calls, buffer sizes and patterns of short reads and writes", "why_tests_cant": "it depends on what is in the buffers of each process when another one calls, and on when each process was made; tests try a few of the interleavings", "anchors": ["src/rsfile/rsfile_factories.py:79-81", "src/rsfile/rsfile_factories.py:237-254", "src/rsfile/rsfile_streams.py:162-186", "src/rsfile/rsfile_streams.py:345-380"]}
{"id": "C118", "title": "detach() hands over the raw stream with all data and at the position", "statement": "detach() of a buffered stream returns the raw stream, open, with its locks, with everything written in the file, and at the position of the stream: a new buffered stream made from it continues exactly where the first one was. If data can not be written, detach() raises and the stream keeps the raw stream and the data. Afterwards nothing done with the first stream, not even closing it, affects the raw stream, and a second detach() raises ValueError.", "quantifier": "all histories of calls before and after the detach, in any interleaving with calls of the first stream, all classes of buffered streams, buffer sizes and patterns of short reads and writes; the second sentence for all answers of the system", "why_tests_cant": "what is lost depends on the state of both buffers and on the answers of the system at the moment of the call", "anchors": ["src/rsfile/rsfile_streams.py:33-76", "src/rsfile/rsfile_streams.py:121-143", "src/rsfile/rsfile_definitions.py:26"]}
{"id": "C119", "title": "On windows, a critical section of text streams sees and leaves the file as if it were alone", "statement": "On windows, let several text streams use a file only while they hold an exclusive lock on it. Then the calls in a section return what they return when the stream is the only one; what is read is the text that the file contains when the section begins; when unlock_file() returns, everything written is in the file; streams that do not hold the lock neither change the file nor fail to wait for it. A log that several streams append to in such sections loses nothing.", "quantifier": "all histories of any number of streams and processes, all codecs that satisfy the laws of C68 and C71, all newline modes, buffer sizes and patterns of short reads and writes", "why_tests_cant": "what a stream decodes before it waits depends on the characters around the position and on what others do in the meantime; the locks of windows are mandatory and refuse transfers that unix permits", "anchors": ["src/rsfile/rsfile_streams.py:88-101", "src/rsfile/rsfile_streams.py:45-57", "src/rsfile/rsfileio_windows.py"]}
{"id": "C120", "title": "detach() of a text stream hands over the buffered stream with all texts and at the position", "statement": "detach() of a text stream returns the buffered stream, open, with its locks, with all texts that were written in the file, and at the position of the text stream: calls of the buffered stream, and then of a new text stream that is made from it, with the same or another encoding and newline mode, continue exactly where the first one was. If data can not be written, detach() raises and the stream keeps the buffered stream and the data. Afterwards nothing done with the first stream, not even closing it, affects the buffered stream or the new text stream, and a second detach() raises ValueError.", "quantifier": "all histories of calls before and after the detach, in any interleaving with calls of the first stream, all pairs of encodings that satisfy the laws of C71, all newline modes, classes of buffered streams, buffer sizes and patterns of short reads and writes; the second sentence for all answers of the system", "why_tests_cant": "what is lost depends on the state of three buffers and on the answers of the system at the moment of the call; the new stream must choose its encoder's state from the position it is given", "anchors": ["src/rsfile/rsfile_streams.py:79-116", "src/rsfile/rsfile_streams.py:33-76", "src/rsfile/rsfile_definitions.py:26"]}
{"id": "C121", "title": "A buffered stream in append mode behaves as a byte array whose writes go to the end", "statement": "For a buffered stream opened on a regular file in append mode, for writing or for reading and writing (unix), any sequence of read, read1, peek, readline, write, seek, tell, truncate, flush, size, lock_file and unlock_file calls returns what a byte array with a position would return in which each write puts its data at the end and moves the position behind them; and after a flush the file has exactly the bytes of this array. In particular a stream that was opened at the end and is only written reports the position at which its next data will be stored.", "quantifier": "all histories of calls, contents, initial positions, buffer sizes and patterns of short reads and writes of the system", "why_tests_cant": "the position of the system, the bytes read ahead and the bytes not yet written are three different notions of where the stream is; where the pending bytes will land depends on all calls since the last flush and on how often a write of the system was short", "anchors": ["src/rsfile/rsfile_streams.py:33-76", "src/rsfile/rsfile_definitions.py:26", "src/rsfile/rsfileio_unix.py:264-272"]}
{"id": "C122", "title": "A text stream in append mode puts its texts, encoded for that place, at the end of the file", "statement": "For a text stream opened on a regular file in append mode, any sequence of write, flush, sync, seek, tell, truncate, size, lock_file and unlock_file calls behaves like a file in which each written text, with its newlines translated, is put at the end, encoded as it must be at this place (with the mark of the encoding at the start of the file, and nowhere else), and the position moves behind it. In particular a stream that was opened at the end and is not moved writes its texts one after the other behind the old content, as if they were one text, and tell() returns the position of the next one.", "quantifier": "all histories of calls that do not read, contents, encodings that satisfy the laws of C71, newline modes, line buffering or not, classes of buffered streams, buffer sizes and patterns of short writes", "why_tests_cant": "the encoder, the buffered stream and the system each have their own notion of where the stream is; whether a mark is due depends on what other processes wrote since the stream was opened", "anchors": ["src/rsfile/rsfile_streams.py:79-116", "src/rsfile/rsfile_definitions.py:26", "src/rsfile/rsfileio_unix.py:264-272"]}
{"id": "C123", "title": "In critical sections, streams in append mode add to the file as it is, whoever wrote before", "statement": "When any number of processes use buffered streams on one regular file, some of them in append mode, each only while it holds a lock on the file (an exclusive one to change it), all results are those of one byte array with a position for each stream, in which the writes of streams in append mode go to the end and move the position behind them; when nobody holds an exclusive lock, the file is this array. In particular, if all streams are in append mode and are only written, flushed and asked for the size, the file is its old content followed by everything that was written, in the order of the calls: no section needs to move to the end first, and nothing is lost or overwritten.", "quantifier": "all interleavings of any number of processes, streams and calls, contents, classes of buffered streams, buffer sizes and patterns of short reads and writes; with the processes, threads, registries and kernels that grant the locks", "why_tests_cant": "whether a stream's buffers and its idea of the position survive the writes of others depends on the interleaving of sections and on what is pending in each stream", "anchors": ["src/rsfile/rsfile_streams.py:51-57", "src/rsfile/rsfileio_unix.py:264-272", "src/rsfile/rsfile_definitions.py:26"]}
{"id": "C124", "title": "In critical sections, text streams in append mode share one log", "statement": "When any number of processes use text streams in append mode on one regular file, each only while it holds an exclusive lock, and do not read, all results are those of one byte array with a position for each stream, in which each text is encoded for the end of the array, stored there, and the position moves behind it; when nobody holds the lock, the file is this array. In particular, if the file is not truncated, it is its old content followed by all texts that were written, encoded, each with the newlines of its stream, in the order of the calls, with one byte order mark at most.", "quantifier": "all interleavings of any number of processes, streams and calls, contents, encodings whose encoder has no other state than the byte order mark, newlines, buffer sizes and patterns of short writes", "why_tests_cant": "whether the encoder, the buffers and the position of a stream survive the writes of others depends on the interleaving of sections and on what is pending in each stream", "anchors": ["src/rsfile/rsfile_streams.py:95-101", "src/rsfile/rsfile_streams.py:51-57", "src/rsfile/rsfileio_unix.py:264-272", "src/rsfile/rsfile_definitions.py:26"]}
{"id": "C125", "title": "A shared log can be emptied while others have it open", "statement": "When any number of processes have a log open in append mode, write to it and cut it to given sizes (in particular empty it with truncate(0)), each in critical sections with an exclusive lock, then whenever nobody holds the lock the file is what a single log would be: each write at its end at that time, each cut keeping its beginning; so after truncate(0) the file contains exactly what was written since then, in the order of the calls, without gaps, whatever positions and buffers the other streams had. For text streams the same holds with encoded texts, and an emptied log begins as a new file does.", "quantifier": "all interleavings of any number of processes, streams and calls, contents, sizes, encodings, buffer sizes and patterns of short writes, on unix and windows", "why_tests_cant": "what a stream keeps from before another process emptied the file depends on the interleaving of the sections and on its position and buffers", "anchors": ["src/rsfile/rsfile_streams.py:51-57", "src/rsfile/rsfileio_unix.py:264-272", "src/rsfile/rsfileio_abstract.py:456-500"]}
{"id": "C126", "title": "A reader that follows a shared log gets every byte once", "statement": "When any number of processes append to a log in critical sections with an exclusive lock, and others read it in critical sections with a shared or exclusive lock, then all that a reader gets from read, read1 and readline, over all its sections since it was opened or last moved, is exactly the log from its starting position: nothing is lost, repeated, stale or out of order, although readers read ahead into their buffers and others write in between. No such call fails, and tell() of a reader is its starting position plus what it has read. After read(), or a call that asks for bytes and gets none, the reader has everything written so far; and if every write is made of whole lines, readline() returns only whole lines or nothing.", "quantifier": "all interleavings of any number of processes, streams and calls, contents, sizes, starting positions, buffer sizes and patterns of short reads and writes, on unix and windows", "why_tests_cant": "what a reader has read ahead when others write depends on buffer sizes, short reads and the interleaving of sections", "anchors": ["src/rsfile/rsfile_streams.py:33-35", "src/rsfile/rsfile_streams.py:51-57", "src/rsfile/rsfileio_abstract.py:456-500"]}
{"id": "C127", "title": "Read-modify-write sections lose no update", "statement": "When any number of processes change a file in critical sections, each time with seek(0), x = read(), seek(0), write(y), truncate() where y is computed from x, and others read it in shared sections, then no update is lost: every read() returns the content with all updates completed until then, in the order of the sections, every write() is accepted whole, truncate() returns the new size, and when nobody holds an exclusive lock the file is the result of all updates made one after the other, whether they make it longer or shorter. The same holds for the text of the file when the programs use text streams, as long as the texts can be encoded and survive the translation of newlines.", "quantifier": "all functions that programs compute, different ones for each stream and each of its updates, all interleavings of any number of processes, streams and sections, contents, buffer sizes and patterns of short reads and writes, on unix and windows", "why_tests_cant": "whether a program reads stale bytes or writes back over those of others depends on buffer sizes, short reads and writes and the interleaving of sections", "anchors": ["src/rsfile/rsfile_streams.py:33-35", "src/rsfile/rsfile_streams.py:51-57", "src/rsfile/rsfileio_abstract.py:456-500"]}
