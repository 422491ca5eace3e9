# Design of the rsfile verification

Subject: `pakal/rsfile` (sources in `/repo/src/rsfile`, read as text; never built or run).
Tool: Lean 4.33.0. Models and proofs live in `lean/Verif/`.

## Trusted base

* Lean's kernel. Theorems depend at most on the standard axioms `propext`,
  `Classical.choice` and `Quot.sound`. There are no own axioms, no `sorry`, no `native_decide`, no
  `bv_decide`, no `implemented_by`, no `unsafe`.
* The reading of the python sources by which the Lean definitions were written. Every model definition
  cites the file and the lines that it transcribes, and states its simplifications.
* The model of the operating system (there is no source for it in `/repo`): POSIX `fcntl` locks,
  file descriptors, `read`/`write`/`lseek`/`ftruncate`/`fsync`, `fork`, and the corresponding Win32 calls.
* The buffered and text classes are not part of rsfile, but its streams inherit from those of the pure-python module `_pyio`
  (`rsfile_definitions.py:26`: `import _pyio as io_module`; the C classes of `io` are not used). They are modelled after the
  copy of that module in `/repo/src/rsfile/rstest/stdlib/_pyio_py313_backup.py`. Findings about them are therefore findings
  about rsfile streams, not about the C streams of `io`; other python versions may differ in details.

## Layout

* `Verif/Model/*`  transcription of the code (definitions only).
* `Verif/Spec/*`   the vocabulary in which properties are stated. It does not use model helpers.
* `Verif/Lemmas/*` auxiliary lemmas and invariants.
* `Verif/Props/*`  the property theorems, each with a non-vacuity `example`.

## Models

| model | code | main abstractions |
|---|---|---|
| `Registry` | `rsfile_registries.py:68-283` | one function per method; an exception is a value |
| `Kernel` | POSIX fcntl record locks, per (process, file) | lock table as a list of ranges; lock/unlock by range subtraction; `close` drops all locks of the process on the file |
| `System` | `lock_file`, `unlock_file`, `close`, `_inner_close_streams`, `_purge_pending...`, fork, exit | labelled transition system over any number of processes, threads, streams and files |
| `Forking` | the registry mutex across `fork` | `System` with one more bit per process: its mutex belongs to a thread that does not exist there, so that every action that begins by taking the mutex is impossible. `fork` inside a registry method that is one atomic action in `System`, and a thread that forks while it owns the mutex itself, are not modelled |
| `WinSystem` | the same methods with `rsfileio_windows.py:188-213,425-478` | labelled transition system as `System`, over file objects, handles and `LockFileEx`/`UnlockFileEx` (owner = process and file object, exact ranges). Any system call may fail; an interrupt may arrive after the grant |
| `LockCall` | `rsfileio_abstract.py:513-662` | argument validation, sharing mode, relative offsets; the control flow of one `lock_file` call driven by arbitrary registry/kernel answers and clock readings; the context manager. Clock and delays are rationals; the spin delay is not negative |
| `RawIO` | `rsfileio_abstract.py:344-495`, `rsfileio_unix.py:155-272`, `rsfileio_windows.py:216-423` | content = list of bytes, position, adversarial short counts |
| `Buffered` | `rsfile_streams.py:33-143`, `_pyio` buffered classes | refinement to a byte array with a position |
| `Modes` | `rsfile_factories.py:224-234,349-454`, `rsfileio_abstract.py:266-294` | strings are lists of characters; `str.lower`/`str.upper` are arbitrary outside ASCII |
| `Patched` | `rsfile_utilities.py:8-18`, signature of `rsopen` | python argument binding over values; `fileno`/`handle` that are not integers are not modelled |
| `Open` | `rsfile_factories.py:207-341`, constructor, `_inner_create_streams`, `close` (unix) | filesystem with descriptor table, log of effects, arbitrary schedule of failures |
| `WinOpen` | `rsfile_factories.py:207-341`, constructor, `rsfileio_windows.py:81-213,280-303`, `close` | as `Open`, with a table of handles and a table of C runtime descriptors (8192 at most); the smallest free number is used. No opener; a share violation is one of the failures of the schedule |
| `Inodes` | `rsfileio_abstract.py:322-329`, `_inner_unique_id` | files have an identity that is never reused, and an OS number that may be; names, links, descriptors change at any time |
| `Utilities` | `rsfile_utilities.py:86-222` | over `Open`, `RawIO`, `Buffered` and `Text`; nobody else touches the file between opening and closing |
| `RawIO` (`sync`), `Spec/Device` | `rsfileio_unix.py:167-188`, `rsfile_streams.py:47-49` | cached and durable content, crash at any point. Assumed of the system: after a successful `fsync`, `fdatasync` or `F_FULLFSYNC` the content is on the device, except for what an earlier reported write error gave up |
| `Wrapper` | `rsfile_streams.py:150-203` | attribute cache, re-entrant mutex, interleavings |
| `Ending` | `__del__`, `__enter__`, `__exit__` of `_pyio.IOBase` as inherited by the three stream classes | the finalisers of the text, buffered and raw object run in any given order; exceptions raised in finalisers are dropped. That the collector finalises the raw object first in a cycle is CPython's behaviour and not modelled; the order is a parameter |
| `Forward` | `rsfile_streams.py:69-74`, `110-115` | which names are forwarded is read off the class definitions; `readall`, `read1` and `peek` are modelled, `readinto1` goes the same way as `read1` |
| `Concurrent` | `rsfile_utilities.py:86-222` with `locking=True`, `rsfile_factories.py:275-341` on unix | calls by threads of many processes on one existing file: opening, locking and closing are actions of `System`, in between one method call of the stream at a time on the common content. Nothing else writes to the file; a killed process leaves at once; the buffer size is a parameter |
| `TextTogether` | `rsfile_streams.py:43-58`, `77-101` over one common file | one codec for all streams; exclusive locks on the whole file; streams opened for reading and writing on regular files of a blocking unix descriptor, without truncation; `lock_file` is two items (reset of the buffers, grant), `unlock_file` one |
| `RawLines` | `readline`, `__iter__`, `__next__`, `readlines`, `writelines` of `_pyio.IOBase` (512-590) as inherited by `RSFileIO` | arguments have the right types; lines are byte strings; one loop stands for `list(self)` and for the loop with a hint |
| `Options` | `rsfile_registries.py:8-62` | finite map |
| `Dwords` | `rsbackend/_utilities.py`, `rsfileio_windows.py:425-478` | exact integer arithmetic |
| `Text` | `_pyio` text layer, `rsfile_streams.py:77-146` | any incremental codec as a state machine; laws of codecs are hypotheses, proved for the codecs in `Spec/Codecs` |
| `Forked` | `rsfile_factories.py:79-81,237-254`, `rsfile_streams.py:162-186`, with `Buffered` for the calls | one open file, a buffered stream object for each process; calls are atomic (`Wrapper`); closing, text streams and the locks of the processes are left out |
| `Detach` | `_pyio:820-826` and the methods of buffered streams whose `_raw` is `None`, `rsfile_streams.py:70-76` | one new stream is made from the detached raw stream; `detach` of text streams is in `TextDetach` |
| `TextDetach` | `_pyio:2424-2430` and the methods of text streams whose `_buffer` is `None`, `rsfile_streams.py:111-116` | one new text stream is made from the detached buffered stream; calls of the buffered stream while a text stream uses it are left out |
| `Crew` | `rsfile_streams.py:150-186`, `rsfile_registries.py:107-194`, `rsfileio_abstract.py:526-532,563-626` | the threads of one process; locks of other processes and forks are left out (`System`); a mutex for each wrapper, none is shared (argument `mutex`); calls other than `lock_file` and `unlock_file` need nothing but the mutex; waiting is a step that is not enabled (the wake-ups are in `System`) |
| `Reconfigure` | `_pyio:2038-2063`, `_pyio:2111-2152` (`reconfigure`, inherited by `RSTextIOWrapper`) | an encoding is given together with its error handler; `write_through` is stored and used nowhere, and left out; the checks of argument types are left out |
| `Together` | `rsfile_streams.py:51-57`, `_lock_remover` | several buffered streams of several processes over one file content; a call is atomic, except that `lock_file` resets the buffers first and is granted later. Regular files, blocking, not in append mode for C75; in append mode for C123; in any mode and with any answers for C90 |
| `WinAppend` | `rsfileio_windows.py:388-421` | `write` of raw streams in append mode on windows, split into its system calls (move to the end, write), by several processes; the file lock as one exclusive lock that is granted if free |
| `WinInfo` | `windows_pywin32.py:65-95`, `windows_ctypes.py:98-106`, `rsfileio_abstract.py:322-333`, `rsfileio_windows.py:264-277, 307-326` | `times` and `unique_id` on windows with both backends, in the world of `WinOpen`; which file is asked about, not its times (C57) |
| `Native` | `rsfileio_abstract.py:314-511`, `rsfileio_unix.py:25-43, 145-272`, `rsfileio_windows.py:39-78, 195-423`, `windows_ctypes.py`, `windows_pywin32.py` | the methods of raw streams as sequences of system calls that answer and fail in any way, and the python exceptions of the three backends; not what the calls do to the file. What `ctypes.WinError`, `pywintypes.error` and the constructor of `OSError` do is assumed as documented |

## What is not modelled

Memory management (except the order of finalisers, `Ending`), python-level signals (except where an
`interrupt` step is named), the exact text of messages, `times()`, `repr`, pickling (`isatty` is part of `Open` and `WinOpen`, as the open call uses it), NFS and
mandatory locking, descriptors closed behind rsfile's back, numeric overflow of C types (except where named).

## Properties: what is modelled and how it is proved

| id | model | proof |
|---|---|---|
| C01 | System | inductive invariant; held locks recomputed from the event trace by a separate spec |
| C02 | System | as C01; false in general (overlapping shared locks of one process share one kernel lock): refuted by a run, partial theorem for runs without such overlap |
| C03 | Registry | byte-level characterisation, induction on the table |
| C04 | Registry | induction on the table |
| C05 | System, Open, Utilities | invariant: native close only with empty lock table; the same for the streams that the open call and the utility functions close |
| C06 | Registry + System | direct, plus trace spec |
| C07 | System | invariant; refuted for the rollback path of a failed lock_file, partial theorem without it |
| C08 | Registry | direct; the "no entry" branch succeeds silently: refuted there, partial theorem |
| C09 | System | invariant of waiters; refuted for close, partial theorem for unlock_file |
| C10 | LockCall, System | induction on the answers |
| C11, C12 | LockCall | induction on the answers and clock |
| C13 | LockCall | bound by induction on time |
| C14 | LockCall | refuted: a permanent error loops forever with timeout=None; partial with a timeout |
| C15 | LockCall | case analysis |
| C16 | System | invariant + fork step |
| C17 | LockCall (context manager) | normal exit proved; exceptional exit refuted |
| C18, C19 | LockCall | arithmetic; C19 refuted for negative relative offsets |
| C20, C21, C22 | Buffered, Text | event order in the trace; C20 refuted for the context manager |
| C23, C24, C25 | Buffered | refinement; C25 refuted for read buffers |
| C26 | RawIO | induction on interleavings |
| C27, C28 | RawIO | pointwise specification; C28 refuted at multiples of the chunk size |
| C29-C32 | RawIO | pointwise specification; C31 refuted for would-block |
| C33 | RawIO, LockCall, Buffered, Text | all methods of the closed state; refuted for buffered reads answered from read-ahead and for `tell` in an iteration over a text stream |
| C34 | Inodes | invariant over all histories of names, descriptors and streams; numbers are chosen by the OS and reused |
| C35, C36, C60 | Modes | all strings; C60 refuted for 'RC' |
| C42, C43, C44 | Open | all strings / all arguments; C42 refuted with an opener (called before the rejection) |
| C66 | Open | refuted when descriptor 0 is free and no buffer size is given; otherwise proved |
| C37-C41 | Open | effect log; C39 (text with buffering=0), C40 (descriptor 0, patched FileIO), C41 (directories, descriptor 0) refuted, with partial theorems |
| C45, C46, C47 | Utilities over Open, RawIO, Buffered, Text | for all answers of the system: when the function returns, the file is what stands for the data; reading returns the file or an error that the system reported; total correctness when system calls succeed. C45 refuted for the descriptor 0 (`close` fails), C46 and C47 refuted for buffering=0 (a short write is ignored); partial theorems otherwise |
| C67 | Utilities | course of the open call, and of the `with` statement for any outcome of the body; refuted for directories and for the descriptor 0 (descriptor leaks), partial theorem otherwise |
| C48 | RawIO, Buffered + `Spec/Device` | log of contents and flushes; a crash leaves any mixture of the contents since the last flush. Refuted: an I/O error reported to `fdatasync`/`F_FULLFSYNC` is swallowed and the following `fsync` succeeds; partial theorem without write errors. The same for `write_to_file`/`append_to_file(sync=True)`; the durability of the directory entry of a new file is not modelled |
| C49 | Utilities, `Spec/Codecs` | for every codec that decodes what it encodes (proved for latin-1, utf-8, utf-16); the newline modes are lossless exactly in the stated cases; refuted for the descriptor 0 |
| C50 | Patched | python argument binding; no lock / no wrapper for all argument lists; equality with rsopen refuted for 8 or more positional arguments; wrong types are rejected before anything happens |
| C51 | Wrapper | refuted for the first call of each method; partial |
| C52 | Wrapper | invariant over interleavings |
| C53, C54 | Options | map extensionality |
| C55-C59 | Dwords | arithmetic |
| C61, C62 | System | invariants; C61 refuted for an exception between the kernel's grant and its registration |
| C63 | Buffered | invariant: file and write buffer contain exactly the accepted bytes |
| C64, C65 | Buffered | refinement; C64 refuted (`ValueError`), C65 refuted for `readline(size)` |
| C68, C69, C70 | Text over Buffered and RawIO, `Spec/TextFile`, `Spec/Decoders` | refinement to a text with a position, for every codec with a lawful incremental decoder (proved for latin-1, utf-8, utf-16). `int(ratio * n)` is any function that stays within the last chunk. C68 refuted for `size`/`flush` in an iteration, C69 for `tell` after a movement, C70 for locks after a carriage return and in an iteration |
| C71 | Text over Buffered and RawIO, `Spec/TextSink` | refinement to a byte array with a position, for every codec with a lawful encoder (proved for latin-1, utf-8, utf-16); refuted for a write after a read without a seek |
| C72 | Open, Utilities | log of lock requests; course of the open call and of the `with` statement |
| C73 | Buffered, Text over RawIO | a reflexive and transitive relation between the states before and after each call, for every answer of the system |
| C74 | Text over Buffered and RawIO | what `write` guarantees when it returns, for every answer of the system; with C71 over histories |
| C75 | Together, System, `Spec/Together` | invariant over all interleavings: the array of the reference, the position and buffers of each stream; exclusion from C01 and C02. Refuted for `with` blocks that do not flush (C20); partial because of the calls of C23 |
| C76 | WinSystem | inductive invariant: every held lock has its kernel lock, kernel locks of different owners are compatible. Refuted for handles duplicated within a process (the system then grants a shared lock over an exclusive one; `unlock_file` releases the other stream's lock) and for lengths from 2^64 on |
| C77 | WinSystem | inductive invariant: registry records, held locks and kernel locks of every process agree (`RInv`). For executions without an interrupt after a grant and without failing `UnlockFileEx`/`CloseHandle`; refuted with an interrupt |
| C78 | WinSystem | from the invariant of C77, for every prefix of the history. Refuted after a failed `UnlockFileEx` |
| C79 | WinSystem | `Spec/Handles` recomputes from the events which handles are owed; invariant: an owed handle is among what remains to be done by the owner of the mutex. Refuted if `UnlockFileEx` fails in `close` |
| C80 | WinSystem | an invariant of its own (`Live`): the handles of open streams are open; failing calls, interrupts, duplicated handles included. Refuted if a handle in use is wrapped again |
| C81 | WinSystem | from the invariant of C77: the records under a handle are those of its stream. Refuted after a failed `UnlockFileEx` |
| C82 | WinOpen | Hoare triples for each step of the constructor; course of the open call (`winOpen_course`) |
| C83 | WinOpen | log of effects in the course of the open call |
| C84 | WinOpen | the state of a stream under construction (`On`), and closing from it |
| C85 | WinOpen | as C84. Refuted: since python 3.12 the probe for blocking mode makes a descriptor that is never closed, for every stream open for writing |
| C86 | WinOpen | the reasons of failure in the course of the open call, each excluded. Refuted: after at most 8192 rounds of opening for writing and closing, the call fails with EMFILE (`C86_exhausted`) |
| C87 | WinOpen | Hoare triples for each step with the handle given (`Wrap`), and closing from every state they allow |
| C88 | WinOpen | as C87. Refuted for descriptor 0, which counts as no descriptor when the erasing is switched off |
| C89 | WinOpen | as C87, with the exact list of new descriptors. Refuted: `isatty` makes a descriptor that a stream with `closefd=False` never closes; since python 3.12 one more for every stream open for writing, and for a non-blocking pipe the given descriptor is never closed |
| C90 | Together, `Spec/Appending` | invariant over all histories: the file is the start content plus the pieces of a ledger, each write buffer is what the ledger says is pending. Any answers of the system; truncation excluded |
| C91 | Raw (windows) | the equation of `_inner_write` without append mode, then case analysis over the answers of the system. Refuted for gaps (`_inner_extend(zero_fill=True)` does nothing) and for `write(b"")` |
| C92 | Raw, Buf, Txt | simulation (`Lemmas/Ported*`): every method does the same in a windows state as in the same state with the unix backend, so long as gaps read as zeros. Any answers of the system, except that in append mode it does not refuse. Refuted for gaps and for `truncate` beyond the end |
| C93 | Raw, Buf, Txt | C23, C68, C69 and C71 carried over by the simulation of C92 |
| C94 | WinAppend | invariant over interleavings of system calls; refuted for overlapping writes, proved for writes under the lock of the file; for any programs a bound on what can be lost |
| C95 | WinInfo | induction over the calls; proved for ctypes, refuted for pywin32 with the exact loss, and a bound after which `times()` fails |
| C96 | Open | the course of a call with a descriptor (`wrap_course`): untouched, or closed by `closeRaw`, or the effects of the lock and the truncation; then `closeRaw_fds`, `closeRaw_locks`, `closeRaw_pending`. Refuted for descriptor 0 with `closefd=True` |
| C97 | Buffered over RawIO, `Spec/Reading` | invariant over all histories (`Buf.Smooth`): what is unread in the buffer are the next bytes of the file, and the position of the system is behind them; the answers used up by a call are tracked, to say when it may return less. Refuted beyond the statement: for failing system calls and for `readinto` |
| C98 | Text over Buffered over RawIO, `Spec/TextDoc` | simulation (`Txt.Keeps`): the invariants of C68 and C71 side by side, each while it is known; a movement to an offset or to the end, from any state, establishes both. Refuted for positions found between writes with encodings that have a byte order mark |
| C99 | Native, `Spec/Failures` | a predicate on computations (`Obeys`) that is kept by sequencing and turned by the error converters; each method is composed of calls. The equality of the backends is a simulation between their exceptions. Refuted for `close()` on windows, `sync()` on unix and the number of the error of `unique_id()` |
| C100 | Text over Buffered over RawIO, `Spec/TextCalls` | invariant over all histories (`Txt.Calm` over `Buf.Smooth`): the characters not yet delivered, and what the decoder will make of the bytes to come, are the rest of the text; the decoder may be told at any point that this is the end (law `Early`, which latin-1, utf-8 and utf-16 satisfy). Refuted for answers between `\r` and `\n`, inside a character, and for `read()` |
| C101 | Text over Buffered over RawIO, `Spec/TextPosting` | invariant over all histories (`Posting`): file and pending bytes together are the old content with the bytes of `Accounts`, a relation between calls, results and bytes that knows the encoder but no buffer; for encodings with one byte per character this is the text reported as accepted, also for a program that continues after BlockingIOError (`persist`). Refuted for utf-8, replaced newlines and line buffering |
| C102 | Forking over System | a decreasing measure (`cost`: calls still to do, plus descriptors waiting to be closed for each `purge`) bounds the steps of the owner in every execution (`C102_release`) from every state, reachable or not; `C102_owner`: it is never blocked; from every state `close`, `unlock_file` and, by an invariant over executions (`Waits`), `lock_file` with a timeout can be completed by actions of their own process alone (`Own`); refuted for `fork` while a thread is inside `close`: no continuation ever lets the child take the mutex (`C102_fork_refuted`), and proved for other forks |
| C103 | Ending over Text, Buffered, RawIO | for every order: closed exactly once, with a prefix of the pending bytes (`Over`), whatever the system answers; all pending bytes if the raw object is not the first; composed with C71 to speak of the text written; `with` for every block. Refuted for the order of cycles |
| C104 | RawLines over RawIO | invariant of the byte-by-byte loop for every schedule (`lineLoop_got`): the bytes read so far are a prefix of the next line; against the reference `linesOf`, shared with C65. `writelines`: composition of stores (`writeAt_append`). Refuted parts are listed below |
| C105 | Text over Buffered over RawIO | invariant `Snapped` (decoded characters come with a snapshot), kept by every method but `__next__`; so `write` drops them. `Resumes`: the bytes are still in the buffer, but every method that looks at the file flushes first, hence behaves as on the flushed stream, for which C68's simulation holds. Refuted after `__next__` |
| C106 | Forward over Text over Buffered | the calls of C23 and `readall` against a byte array with a position; the simulation of C23 goes on while nothing is buffered when `readall` is called, which every `seek` ensures. Three refutations by running the model |
| C107 | TextTogether | invariant of all histories (`TextTogether.Books`): one holder at most, others have nothing pending, a stream that waits has empty buffers; then induction over the section, and the reference `Doc` of C98 for the content found after the lock was granted; induction over the sections for the log. Two refutations by running the model. Exclusion of the locks from the lock system that runs beside the programs (`Props/TextLocks`, C01) |
| C108 | Wrapper over Buffered | the serialisation of C52 gives a history of the buffered stream, for every implementation of its methods by atomic actions (`Implements`), and C23 applies; induction over the run of a method for the progress. Two refutations, one for every bound on the waiting time |
| C109 | Open, RawIO, Buffered, Text over `Spec/SyncDevice` | the device is determined by the calls of the history: the events of a call that can only write are stored when they happen (what `O_SYNC` promises), those of `truncate` and `lock_file` are not; invariant: the device has exactly the content that others see. Crashes as for C48 |
| C110 | Concurrent: the utility functions as processes over System and the streams; one method call of a stream at a time on the common content | invariant along all runs: the lock of a call is held in the sense of C01/C02 while it works; the content is what the call that holds the exclusive lock makes of the content before it, alone; a bisimulation that ignores the position in append mode (it is taken before the lock).  The reference `Serial` is a log of calls that happen at once |
| C111 | Together (several streams on one file); locks are ranges of bytes (`Spec/Records.lean`), held in System | invariant: each stream's pending bytes lie in its exclusive ranges, its unread bytes agree with the file where it has a lock; the file with the pending bytes of a stream is the array where the stream has a lock.  A stream whose read-ahead is stale behaves as on a file in which it is not (`Lemmas/Stale.lean`), and a call does not depend on bytes beyond those it needs (`Rec.transfer`).  Exclusion of ranges from C01 and C02 |
| C112 | LockRange: the forwarding methods with the argument handling of LockCall on the position and size of the raw stream | refinement of C23: after `_reset_buffers` the raw position and size are those of the reference; for text streams the specification of `tell` and `seek` of C69 |
| C113 | Open | a call with an opener equals the call that wraps its result, for all openers (computations on the state of the process); the rest from C96 and the course of the constructor |
| C114 | Together, WinSystem, `Spec/WinTogether` | every item does the same as on unix streams (`Lemmas/PortedTogether`), where the invariant of C75 holds; exclusion from C76, for shared locks too. Refusals of transfers that meet the locks of others (mandatory locks) are not modelled: no transfer of such a program meets one |
| C115 | Reconfigure, Text, `Spec/TextSink`, `Spec/TextFile` | the invariant of C71 passes from one set of settings to the next; streams that were not read have no decoder (`Lemmas/Reconfigure`), those that were keep one (`Lemmas/Decoding`); after a movement to the beginning the stream is one that was just opened |
| C116 | Crew, `Spec/Crew` | invariant (owners of mutexes, one lock per thread, no two equal locks); the owner of the oldest lock of a file is never blocked by a mutex; every step of the continuation makes a measure of the work that is left smaller; the refutations by a set of threads that wait for each other (`Knot`), which every step of any thread keeps |
| C117 | Forked, `Spec/Forked` | simulation: between turns every process has empty buffers, the one whose turn it is has a buffer that represents the file (`Buf.R` of C23); for writers an invariant with the bytes that each process still owes |
| C118 | Detach | simulation with C23's `Buf.R` before and after the detach; `C118_nothing_lost` from the specification of the flush loop for arbitrary answers; `C118_orphan` by cases |
| C119 | TextTogether, `Spec/WinTextTogether` | every item does the same as on unix streams (`Lemmas/PortedTextTogether`), where C107 holds. Mandatory locks: a stream that asks while another holds the lock is considered only if its `lock_file` also succeeds when the system refuses every transfer; no other transfer meets the lock of another stream. Exclusion of the locks as for C107, from the windows system (C76). In a log no waiting stream needs a transfer (`LogTrace.calm`, as `UpdateTrace.calm` for C127) |
| C120 | TextDetach | simulation with C71's `Outlet` before the detach, C23's `Buf.R` for the calls of the buffered stream, and `Outlet` again for the new text stream, whose encoder starts according to the position; `C120_nothing_lost` from the specification of the flush loop for arbitrary answers; `C120_orphan` by cases |
| C121 | Buffered, RawIO | simulation: a stream without pending bytes does the same as one that is not in append mode (`Buf.step_flag`), a stream with pending bytes is related to one whose position is the end of the file (`Buf.Appends`), and each call but `write` and those that do nothing begins with a flush; then C23's `Buf.R`. Windows by C92, and for `truncate` by `Appends.truncate_ports` |
| C122 | Text, Buffered, RawIO | simulation: every call but `write` begins with a flush or is refused; a flushed text stream does the same as one that is not in append mode (`Txt.step_flag`, for all calls but `write`), so that C71's `Outlet` applies; `write` from C121's `Buf.Appends`. Windows by C92 |
| C123 | Together, Buffered, RawIO, System, WinSystem | invariant `Turns` over all histories, as C75's `InTurn`, with C121's `Buf.Appends` for the streams in append mode and C23's `Buf.R` for the others (`Rep`); a stream at rest does the same in both modes (`Pausing`, from C121's `step_flag`). The exclusion of the locks comes from C01 and C76. Windows by C92 and, for `truncate`, C121 |
| C124 | TextTogether, Text, Buffered, RawIO | invariant `Desks` over all histories: the stream with the lock represents the array (C122's `Logbook`), the others have nothing to write and represent the array whatever it contains (`Parked`, which survives the replacement of the file). Which text is where: `TextPooled.entered` over the reference. Windows by C92; that a waiting stream needs no transfer, which the mandatory locks would refuse, is computed for parked streams whatever the system answers (`Vacant`). Exclusion of the locks as for C107 and C119 |
| C125 | Together, TextTogether | C123 and C124 give a history of one array; the array is the log by induction over it (`Pooled.rotates`, `TextPooled.rotates`); no stream reads, so that no call is one that C23 and C121 exclude. Text on windows: `truncate` is a flush, after which the buffer represents the array, and C121's `truncate_ports` (`Txt.truncate_ports`); the histories on windows and unix are compared along with the array (`WinCutRun.desks`) |
| C126 | Together | C123 gives a history of one array; by induction over it a reader is always where it stopped reading, and the array only grows (`Pooled.following`) |
| C127 | Together | C123 gives a history of one array; by induction over it the stage of each program (before reading, read, written, cut) fits to the array, and between `write` and `truncate` nobody else has a lock (`Pooled.updating`); for text streams (`C127_text`), by induction over the sections with C107's theorem about one section; on windows every item does the same as on unix, `truncate()` too, since its position is not behind the end of the file (`edit_state`, `cut_ports`); streams that wait for the lock there need no transfer, by the invariant that every stream without the lock is empty (`Calm`; `Bare.unlock` at the end of a section, `UpdateTrace.calm`) |

## Findings

Claims that are false of the code, each with a proved counterexample (the theorem named first). The restricted claims that do
hold are in the table above.

Locks
* `C02_refuted`, `C05_shared_refuted`: shared locks of one process that overlap share one kernel lock; releasing one, or closing
  its stream, drops the other.
* `C07_rollback_refuted`, `C07_fd0_refuted`, `C07_fork_refuted`: descriptors that `close` postpones stay open after a rollback of
  `lock_file`, for descriptor 0, and in a child created by `fork`.
* `C08_unlock_unowned_refuted`: unlocking a range of a file without any lock succeeds silently.
* `C09_refuted`: `close` releases locks and wakes nobody.
* `C14_refuted`: with `timeout=None` a permanent error of the kernel is retried for ever.
* `C17_refuted`: `with f.lock_file():` does not unlock if the block ends by an exception.
* `C19_refuted`: `unlock_file` rejects arguments that `lock_file` accepts.
* `C20_refuted`, `C75_with_refuted`: the end of `with f.lock_file():` releases the lock before the buffer is written.
* `C61_refuted`: after a failed `lock_file` a kernel lock may remain.
* `C76_dup_shared_refuted`, `C76_dup_unlock_refuted`, `C76_length_refuted`, `C58_large_length_refuted` (windows): duplicated
  handles, and lengths from 2^64 on.
* `C77_interrupt_refuted`, `C77_interrupt_blocks_refuted`, `C78_retry_refuted`, `C79_error_refuted`, `C81_retry_refuted` (windows):
  locks that remain after an interrupt, a failed unlock, a failed close.
* `C80_refuted` (windows): a handle that an open stream uses is wrapped again.

Raw and buffered streams
* `C23_refuted`, `C23_seek_refuted`: bytes read ahead are returned after the file was cut; a failing `seek` moves the position.
* `C25_refuted`: `truncate()` after a read cuts at the raw position.
* `C28_refuted`, `C28_short_refuted`, `C92_truncate_refuted` (windows): extending by a multiple of 8192 bytes fails; a short write
  of the padding is not noticed.
* `C31_refuted`: `readinto` without data raises `TypeError` on a non-blocking stream.
* `C33_buffered_refuted`, `C33_text_refuted`: a reader returns bytes after `close()`; `tell` inside an iteration.
* `C34_closed_refuted`: `unique_id()` is cached, also if the descriptor is replaced.
* `C48_refuted`: `sync(metadata=False)` hides a write error of `fdatasync`.
* `C63_error_refuted`: a `write` that raises may be carried out later.
* `C64_refuted`, `C64_short_refuted`, `C65_size_refuted`: `readinto` raises `ValueError`; `readline(size)` returns too much.
* `C91_refuted`, `C91_empty_refuted`, `C92_gap_refuted` (windows): gaps are not filled with zeros; `write(b"")` returns `None`.
* `C94_refuted` (windows): overlapping writes in append mode overwrite each other.
* `C97_failure_refuted`, `C97_readinto_refuted`: if the second system call of a buffered `read(n)` fails, the bytes of the first one are lost; `readinto` on a non-blocking stream takes the buffered bytes and raises TypeError.
* `C98_refuted`: with utf-16, on a stream that was never read: `write`, `p = tell()`, `write`, `seek(p)`, `read()` raises UnicodeError. `seek` restores the state of the decoder only if there is a decoder already; the one that `read` creates expects a byte order mark. After any `read` the same calls succeed.
* `C99_refuted`, `C99_unique_id_refuted`: `close()` on windows says EBADF whatever the error was; `sync()` on unix ignores failures of its first attempts; the error number of `unique_id()` on windows is 50 with ctypes (a windows code, not an errno) and 22 with pywin32.

Text streams
* `C100_newline_refuted`, `C100_character_refuted`, `C100_read_refuted`: on a non-blocking stream, would-block is taken for the end of the file. After the `\r` of a `\r\n` two newlines are returned; inside a character `read(n)` raises UnicodeDecodeError and loses the characters before; `read()` raises TypeError and loses what was decoded already.
* `C101_bytes_refuted`, `C101_newline_refuted`, `C101_line_refuted`: on a non-blocking stream, `characters_written` of the BlockingIOError raised by `write` of a text stream is a number of bytes of the encoded text with its newlines replaced, and 0 if a complete line is in the buffer but could not be flushed. A program that continues after the exception loses characters, or writes the line twice.
* `C102_fork_refuted`: if a process forks while another of its threads is inside `close()`, `unlock_file()` or a registry method, the child inherits the locked registry mutex without its owner: `close()`, `unlock_file()` and `lock_file()` of any stream of the child block for ever. `_check_forking` flushes the registry of a child but cannot be reached without the mutex; `os.register_at_fork` is not used.
* `C103_cycle_refuted`: if an unclosed buffered or text stream is part of a reference cycle, the collector may finalise the raw object first (it is the oldest); it closes itself without the pending data, the buffered object then finds itself closed and returns: data accepted by `write()` are lost without any exception.
* `C104_writelines_refuted`, `C104_skipped_refuted`: `writelines` of an unbuffered stream ignores the counts returned by `write`; if a system call stores only a part of a line (or would block), the rest is silently left out and the next line follows.
* `C104_torn_refuted`, `C104_lost_refuted`: on an unbuffered stream `readline` returns a torn line when a call would block, and the bytes read before a failing call are lost.
* `C104_closed_refuted`: `readline(0)` of a closed unbuffered stream returns `b""` instead of raising `ValueError`.
* `C105_refuted`: `next(f)`, `f.write(s)`, `f.read()` returns the characters that `next` had read ahead, which are before the place written. `write` discards them only `if self._snapshot` (`_pyio:2207`), and there is no snapshot during an iteration.
* `C106_readall_refuted`: `f.read(1)`, `f.readall()` on a buffered stream skips what `read` had read ahead; the next `read()` delivers it. `readall` is not a method of the buffered classes, `__getattr__` finds it on the raw stream (`rsfile_streams.py:69-74`).
* `C106_write_refuted`: `f.write(b'X')`, `f.readall()`, `f.close()` at the start of a file: the byte is appended to the file instead of being stored at its start.
* `C106_text_refuted`: `t.read(1)`, `t.peek(1)` on a text stream returns `b''` although text follows: `peek` is the method of the buffered stream, which stands behind all that was decoded ahead.
* `C107_refuted`: a text stream with universal newlines that has read up to a `\r` calls `lock_file` and waits; meanwhile another stream overwrites the next character. The first one then reads the old character: `lock_file` resets the buffers before waiting (`rsfile_streams.py:96`), and `seek(0, 1)` restores the decoder by decoding the following character again, which stays among the decoded characters.
* `C107_unlock_refuted`: `unlock_file` inside `for line in f` raises, since it calls `tell`, which is disabled by the iteration; the lock is still held.
* `C108_wait_refuted`: `lock_file` waits for the lock of another process inside `with self.mutex` (`rsfile_streams.py:170-172`); meanwhile `lock_file(timeout=0)` and `close()` of other threads wait too, longer than any bound.
* `C108_iteration_refuted`: `iter(wrapper)` is the wrapped stream (`rsfile_streams.py:188-189`); `next` runs without the mutex, and two threads get the same element.
* `C109_refuted`, `C109_lost`: the documentation of S says that writes don't return before the data is on the device (`rsfile_factories.py:154-158`); `rsopen` puts a buffer on top by default, and a write that fits into it makes no system call.  Every buffered stream loses such a write in a crash.
* `C109_wrapped_refuted`: with `fileno=` the flag S is not applied to the descriptor (`rsfileio_unix.py:91-120`), and not refused; the stream keeps `_synchronized = True`.
* `C110_torn_refuted`: by the fault of C02, `read_from_file` in two threads of one process: the one that ends first unlocks the file for other processes, `write_to_file` of another process erases it, and the other thread returns `b""` although the file was never empty between two calls.
* `C110_marks_refuted`: `append_to_file` opens the file and takes the position before it locks (`rsfileio_abstract.py:190-196`, `rsfile_factories.py:275-284`); `TextIOWrapper` decides by that position whether to write a byte order mark, so two processes that append to a new file both write one.
* `C111_extend_refuted`: in an empty file, a stream locks byte 1 and writes it; the size of the file and byte 0 change only with the flush, so that a stream that has locked byte 0 reads the end of the file instead of a zero byte.
* `C112_text_refuted`: a text stream has read `a` and a carriage return, translated to a newline; `_reset_buffers` seeks to a position where one more byte has to be decoded and one character skipped, so that the buffered stream below is behind that byte, and `lock_file(1, 0, os.SEEK_CUR)` locks byte 3 instead of byte 2.
* `C113_refuted`: `rsopen(name, "rb", encoding="utf8", opener=f)` is rejected after `f` has opened the file, whose descriptor stays open; `C113_directory_refuted`: so does that of a directory, although the arguments are sound.
* `C114_gap_refuted`: on a system that does not fill gaps with zeros, a critical section that writes beyond the end leaves other bytes in the gap; `C114_with_refuted`: as `C75_with_refuted`, on windows.
* `C115_lost_refuted`, `C115_position_refuted`, `C115_lock_refuted`: `reconfigure(line_buffering=True)` on a text stream that was read drops the decoder but not the decoded characters: a held back carriage return is lost, and `tell()` and `lock_file()` raise `AssertionError` until the stream is moved; `C115_fixed_refuted`: a second `reconfigure` then changes the newlines although text was read; `C115_bom_refuted`: on a pipe another byte order mark is written.
* `C116_other_refuted`, `C116_cross_refuted`: `lock_file()` of a thread-safe wrapper waits for the lock while it holds the mutex of the wrapper.  A thread that has locked the file with one stream and then uses another stream, in which a second thread waits for the same lock, waits for ever; with locks of different bytes even threads that only want to call `unlock_file()` of their own stream do.
* `C117_ahead_refuted`, `C117_twice_refuted`, `C117_order_refuted`: processes that inherit a stream share the mutex and the open file, but not the buffers.  Against the documentation (`rsfile_factories.py:79-81`) it is not enough to hold the mutex: bytes that one process has read ahead are not seen by the others, bytes that are pending at the fork are written by both processes, and bytes land in the order of the flushes.
* `C118_refuted`: `detach()` of a stream that was read from does not seek back over the bytes that were read ahead; they are lost for whoever uses the raw stream (the stream object still returns them from `read(n)`).
* `C119_refuted`, `C119_unlock_refuted`: as for C107, on windows. `C119_wait_refuted`: `lock_file()` of a text stream that stands after a carriage return reads the file before it waits; on windows this fails with `ERROR_LOCK_VIOLATION` while another stream holds the lock.
* `C120_refuted`: `detach()` of a text stream that was read from drops the chunk that was read ahead: after one character was read, a new text stream made from the buffered stream reads nothing.
* `C121_refuted`: after `seek(0)` and `write(b"A")` on a stream in append mode `tell()` returns 1, although the byte goes to the end; `C121_truncate_refuted`: `truncate()` there cuts a stream for reading and writing to one byte, and so destroys data.
* `C122_refuted`: two processes open an empty file in append mode with utf-16; the one that gets the lock second writes a byte order mark into the middle of the file, because its encoder was set up for position 0 when the stream was opened. `C122_missing_refuted`: after `seek(3)` in an empty file the mark is missing.
* `C123_refuted`: two processes open an empty file in append mode; the first writes two bytes in a critical section, then the second one writes one byte in its own: its `tell()` returns 1, and the byte is at 2. `C123_plain_refuted`: without append mode the second stream overwrites what the first one wrote, since a lock does not move the stream.
* `C124_refuted`: two processes open an empty file with utf-16 in append mode; the second writes in a critical section, then the first one does: both begin with a byte order mark, the second mark is in the middle of the file.
* `C125_text_refuted`: a process empties a log with truncate(0) and writes to it with utf-16: the position is still behind the start, the encoder gives no byte order mark.
* `C125_plain_refuted`: without append mode a process that wrote before another one emptied the log goes on at its old position; a gap of zeros is left.
* `C68_refuted`, `C69_iteration_refuted`, `C69_refuted`, `C70_refuted`, `C70_iteration_refuted`: `tell`, and so locking, inside an
  iteration or after a movement.
* `C71_refuted`: writing after a read goes behind all that was read ahead.

Opening
* `C39_refuted`: `rsopen(name, "w", buffering=0)` is rejected after the file was erased.
* `C40_refuted`, `C40_fileio_refuted`, `C66_refuted`, `C88_refuted`: descriptor 0 is taken for a missing argument.
* `C41_refuted`, `C67_refuted`: opening a directory leaves its descriptor open.
* `C41_zero_refuted`, `C67_zero_refuted`, `C45_zero_refuted`, `C49_zero_refuted`, `C96_refuted`: `close()` of a stream that owns the descriptor 0 raises
  `AssertionError` and leaves it open (`assert data`, `rsfile_registries.py:250`).
* `C42_opener_refuted`: the opener is called before the arguments are rejected.
* `C46_refuted`: `write_to_file` may write a part only.
* `C50_positional_refuted`: the patched `open` with eight positional arguments.
* `C60_refuted`: the mode that a stream reports.
* `C85_refuted`, `C86_refuted`, `C89_refuted`, `C89_pipe_refuted`, `C95_refuted` (windows): descriptors of the C library
  that are never given back, by opening, wrapping, and by `times()` with pywin32.

Others
* `C51_refuted`, `C52_direct_refuted`: the first call of every method of a thread-safe wrapper goes without the mutex.
* `C57_float_refuted`: FILETIME conversion to a float merges different times.
