# Formal model of cubiclesoft/cross-platform-cpp

The model and the proofs are in Lean 4 (`lean/Verif`).  `properties.jsonl` lists the claims in English,
`MANIFEST.json` maps each claim to theorem names, `seeded/LOG.jsonl` records the mutation tests.

## 1. Method

* The code in `/repo` was read, never built or run.  Each Lean definition cites the file and lines it follows.
* One directory per component: `Model.lean` (the code), `Spec.lean` (an independent specification that
  mentions no model helper), `Lemmas*.lean`, `Props.lean` (the property theorems with non-vacuity examples).
  Small components keep model, spec and lemmas in fewer files, the theorems always in `Props`.
* Undefined behaviour is a value.  `Verif.Base` defines `CRes α = Except UB α`.  A read or write outside a
  buffer, a NULL dereference, a use of an unowned heap cell, a signed overflow or a division by zero is
  `throw`n; a theorem saying that a call equals `.ok _` therefore says the call has no such behaviour.
* Machine words: where wrap-around matters numbers are `Nat` reduced modulo `2^64`/`2^32` at exactly the
  places where the C++ expression is unsigned, or `UInt64`/`BitVec 64`.
* Concurrency: a sync primitive is a transition system whose atomic steps are the sections the code runs
  between taking and releasing the process-shared `pthread_mutex_t`; a theorem ranges over all traces.
* The operating system (file bytes, short reads, signals, loader results) is a parameter (an oracle or an
  explicit nondeterministic relation) and every theorem is for all of its behaviours.

## 2. Trusted base

* Lean 4.33.0's kernel.  Theorems use at most the standard axioms `propext`, `Classical.choice`, `Quot.sound`
  (`lean/Verif/Axioms.lean` prints them for each property theorem).  No axiom is added; no `sorry`,
  `native_decide`, `bv_decide`.
* The reading of the C++ into Lean.  It targets the POSIX branch, LP64, two's complement, 8-bit
  `char` (signed as on x86-64 Linux; the path and string hashing models take the signedness as a parameter), the C++17
  rules for signed overflow.
* Library calls (`memcpy`, `memmove`, `strlen`, `strcmp`, `malloc`, `new`) have their documented meaning;
  allocation does not fail unless a section says otherwise.
* pthreads: a mutex gives mutual exclusion, a condition variable may wake spuriously and at any time.
* Threads interleave their steps.  For the synchronisation objects C132 shows that no interleaving has a data race, so
  (by the C++ memory model) the interleavings are all the behaviours there are.

## 3. Plan per property

| id | modelled | how proved |
|---|---|---|
| C01-C04 | `Convert::Int::ToString`, byte buffer with checked writes, backwards writing loops, final `memmove` | loop invariant "the tail of the buffer is the rendering of the digits consumed so far"; parse/render inverse |
| C05-C06 | `ToFilesizeString` incl. the wrapping multiplication | bounds by loop invariants; value under a no-wrap condition, negation witness for the wrap |
| C07-C13 | the whole `JSON::Serializer` as a state machine over a byte buffer | invariant over call histories; refinement to a document tree; JSON grammar as an inductive relation; escape/unescape inverse |
| C14-C17 | heap of nodes with prev/next pointers | separation-style invariant "the heap holds this list", refinement to `List` operations for all histories |
| C18-C21 | heap of nodes with list and bucket chains | invariant linking chains, buckets and list; refinement to an ordered map |
| C22-C24 | node array and bucket heads | the same with indices |
| C25 | slot array | refinement to a history function |
| C26-C27 | flat arrays | array laws; negation witnesses |
| C28-C29 | FastFind/FastReplace loops | candidate filter soundness; refinement to the naive search |
| C30-C33 | code point encoder/decoder, converters | case analysis over the code space by arithmetic; induction over input |
| C34-C37 | transition systems | inductive invariants over all traces |
| C38-C39 | name mangling as a string function, named memory protocol as a transition system | injectivity on a sub-domain, witnesses for collisions; trace invariants |
| C40 | bucket arithmetic, free lists, header byte | invariant over all allocator histories |
| C41-C42 | mixed variable buffer operations | refinement to `List.take`; numeral round trip |
| C43-C45, C56 | path functions on byte lists | refinement to component lists |
| C46-C50 | file object over an abstract file with oracle for short transfers | invariants and refinement |
| C51-C52 | rejection sampling over a stream, read oracle | counting argument by bijection; divergence witness |
| C53 | buffer functions | bounds, witness of the one-byte overrun |
| C54 | loader state machine | invariant over all call sequences |
| C55 | file system tree | induction over the tree |
| C57 | hash functions over a memory with neighbours | locality of reads |
| C58, C59 | converters with a growing buffer, position counters | induction over the input |
| C60, C61, C69 | the transition systems of C34-C37, mutex and lock on the real semaphores and event | invariant "a signal is under way or nothing is to be had", refinement by the effect labels |
| C62, C63 | allocator of C40 with failing system allocation, start and end of threads | invariants over histories |
| C64 | `File::Open`, `Close` with sharing modes | decision table over all outcomes of the system calls |
| C65 | link reading and real path over a buffer | bounds, refinement to path operations |
| C66 | SipHash from the paper next to the code | equality for all keys by induction over the blocks |
| C70, C71 | time arithmetic on integers | linear arithmetic |
| C72-C74 | operations by name over an arbitrary file system (`Sys σ`) | equality with the system's answer for all states |
| C75 | a file system of names and numbered files, `Copy` of C49 inside | frame conditions, negations for padded and lost data |
| C76 | any number of objects over numbered streams, simulation to "the names still to come" | forward simulation, induction over the loop; negation for long names |
| C77 | objects over numbered blocks with their live pthread parts; simulation to gone / closed / opened, ownership invariant (each live block has exactly one owner) | forward simulation, induction over the history |
| C78 | same model; the answers of `SharedMem` after `Create` | from the simulation of C77; negations |
| C79 | mutexes over the same blocks plus the set of semaphores that are down | forward simulation; invariant "a named semaphore that is down is reachable"; negations |
| C80 | offsets as the code computes them, as a chain of parts | arithmetic on the chain; negation for the alignment |
| C81 | `ReplaceData` on the variables of C68 and the search of C28, result in a block of its own or in place | loop invariants over the abstract allocator and the byte list; negations |
| C67, C68 | mixed variables with wide text; thread-local mixed variables on the allocator of C40 | refinement to byte lists for all histories |
| C82, C83 | Windows branch of `utf8_appinfo.cpp` over the conversion of C32, folder paths as lists of 16-bit units, the system's answers as arguments | exact results for all buffers; negations |
| C84, C85 | Windows branch of `utf8_file_dir.cpp` 228-396 with checked accesses; the registry as a function from the name of a volume to a drive letter | exact characterisation of accepted names and results; negations; partition of the name |
| C86, C87 | Windows branch of class `File` (`utf8_file_dir.cpp` 42-227) over the system's file as bytes with a file pointer; every system call may fail or cut a transfer short | refinement by induction over histories; negations |
| C88 | Windows branch of `GetAbsoluteFilename` (`utf8_file_dir.cpp` 398-507) on byte lists, with the uninitialised local buffers as arguments | simulation of the loops by those of C43 under exchange of slash and backslash; negations |
| C89-C94 | Windows branches of `GetWindowsPlatformFilename`, `Exists`, `Chmod`, `Copy`, `Move`, `Delete`, `Stat`, `SetFileTimes` and the conversions of times (`utf8_file_dir.cpp` 509-1017 without `Realpath` and the functions for links), the clock (`environment_appinfo.cpp`), over a file system with names, numbered files, attributes and times, and a system that may refuse any call | case analysis of each system call; bit by bit reasoning on attributes; the epoch computed from the calendar; negations |
| C95, C96 | Windows branches of `Mkdir`, `Rmdir`, `Rmdir_RecurseInternal`, `Getcwd` (`utf8_file_dir.cpp` 1075-1191), over an arbitrary system (a record of functions on a state) and over a tree | induction over the depth and over the entries with a log of all requests; the tree as an instance of the system; negations |
| C97 | `Getcwd` as above | the conversion and C84 composed; negations |
| C98 | Windows branches of `Dir::Open`, `Read`, `Close` (`utf8_file_dir.cpp` 1020-1073), any number of objects and search handles | refinement of an object that is only the list of names to come; C88 for the pattern; negations |
| C99 | Windows branch of `Sync::ReadWriteLock` (`sync_readwritelock.cpp` 68-184) as a transition system, every system call may fail | inductive invariant over all traces; refinement of the atomic lock of C37 |
| C100 | as C99 | invariant that the event is signalled when nobody reads and no reader is under way; negations at the limit and for a failing `SetEvent` |
| C101 | Windows branch of `Sync::Mutex` (`sync_mutex.cpp` 66-126) as a transition system; kernel mutex with owner, recursion count and abandonment; waits and releases may fail, threads may end | inductive invariant over all traces; refinement of an atomic re-entrant mutex with several objects |
| C102 | as C101 | direct computation from any abandoned state; negations with concrete traces |
| C103 | as C101 | the invariant says every object lock is backed by one kernel acquisition; case analysis of blocked states |
| C104 | Windows branches of constructors, `Create`, destructors of the sync classes (`sync_semaphore.cpp`, `sync_event.cpp`, `sync_readwritelock.cpp`, `sync_mutex.cpp`, `sync_sharedmem.cpp`) over one kernel with handles, named objects and views; any call may fail | inductive invariant over all histories |
| C105 | as C104 | the same invariant without the exception for lost handles; negation with a concrete history |
| C106 | as C104 | the invariant links view, handle and size; negations with concrete histories |
| C107 | as C104 | names of live kernel objects are unique per invariant; the texts are injective |
| C108 | as C104, with `Lock`, `Unlock`, `Wait`, `Fire`, `Reset` | induction over the history with counts taken from results only |
| C109 | as C104, with the checks at the head of the four calls | from the invariant; negation |
| C110 | Windows branch of `Readlink` (`utf8_file_dir.cpp` 906-959) over `GetWindowsPlatformFilename` and `ConvertToUTF8` as in C84 and C32, any system | evaluation of the conversion on the characters read; negations for all links of the usual layouts |
| C111 | Windows branch of `Symlink` (`utf8_file_dir.cpp` 856-904) over `GetAbsoluteFilename` (C88), any system | evaluation for ASCII names; negation |
| C112 | Windows branch of `Realpath` (`utf8_file_dir.cpp` 549-665) over C84, C88, C31, C32, any system | induction over the walk (components, entries, links left) with an invariant that relates the three buffers to the name, what is left of it and the path so far |
| C113 | `GetBucketInfo` (`sync_tls.cpp` 186-201) on the allocator of C40 | a second invariant over histories, the exact size of every block; serving of requests while the system refuses |
| C114 | one call of `ReadLock` or `WriteLock` on Windows in time (`sync_readwritelock.cpp` 68-140), waits of any length and result, any clock | bounds over the sequence of waits; negations |
| C115 | `GetUnixMicrosecondTime` on Windows (`sync_util.cpp` 46-60) | arithmetic |
| C116 | `CSPRNG` on Windows (`security_csprng.cpp` 10-28), any answers of `RtlGenRandom`; `GetInteger` shared with C51 | case analysis; negation for every size from 4 GiB on |
| C117 | `ModuleUtil`, `FunctionUtil` and the call templates with destructors, several objects in one process, a trace of loader calls and jumps | invariant over histories |
| C118 | `FindCodePoint`, `NextASCIICodePoint` (`utf8_util.cpp` 309-335, 374-391), as compiled and with the C library's `strlen` | induction over the text; negations |
| C119 | a caller's loop over `FindNext` and `Replace`; `FastReplace` with the blocks it owns, any sequence of calls | induction over the matches; invariant over histories; negations |
| C120 | the packed table with numbered value objects and blocks; destructor, `operator=` | invariant over histories (ledgers of live numbers); negation |
| C121 | one heap, a cache and a pointer per thread, interleaved calls | each thread's part of the heap (an owner for every block) refines C40; simulation between masked and real heap; negation |
| C122 | POSIX constructor and destructor of `CSPRNG`, a table of descriptors shared with the program's files | invariant over histories (each descriptor has one owner) |
| C123 | the four lock guards, programs of blocks with early exits, on `RwLock.Full` | stack discipline by induction; simulation by executions with paired calls |
| C124 | `Sem`, `Event`: every way to `return false` | invariant over executions: what the position of a thread says about its limit and the state, frame lemma for steps of other threads |
| C125 | `PackedHash.cstep` (`Next`, `Prev`, `Get`, `Find` with a position, mixed with all calls) | simulation: index against the list split at the position; then induction over the actions in the specification |
| C126 | `PackedHash.autoResize`, `internalResize`, `shouldOptimize` | case analysis on the exact sizes from the invariant, then induction over histories |
| C127 | `OrderedHash.growOrAttach`, `resize`, `nextPrimePos`, `primes` | invariant over all histories; a frame lemma per call; the ratio of neighbouring primes by evaluation of the finite table |
| C128 | `OrderedHash.KeyMem`, `OrderedHash.destroy` | refinement of node memory by keys that are numbers, copies or borrowed; invariant: blocks are not shared and as many as copies |
| C129 | `OrderedHash.Multi` | frame lemmas for every function of the single-hash model (nodes that are not named are neither read nor changed), refinement of a family of hashes |
| C130 | `Tls.Scope` | invariant over all executions of all programs; the allocator part is C40 |
| C131 | `DList.PropsSweep`, `OrderedHash.PropsSweep` | induction over the nodes still to be visited, on top of the refinements of C14 and C18 |
| C132 | `Race`: accesses of the next step of each thread, over `Sem`, `Event`, `Mutex.Full`, `RwLock.Full`, `WinMutex` | ownership of the lock at every access (invariants of C33-C38), completeness of the access lists, negation for the untested lock |
| C133 | `RwLock.Full` | exclusive ownership of the write mutex (without bound on the readers), positions from which a reader needs it; for the negation a cycle of 61 steps that returns to the same state |
| C134 | `Progress` (on `Sem`, `Event`, `Mutex.Full`, `RwLock.Full`) | a potential for the steps left in a call, raised only by calls and by going to sleep; whoever holds an internal mutex is at a position inside it from which a step is possible |
| C135 | `Client` (on `Mutex.Full`, `WinMutex`) | the program's position of each thread goes with depth and phase of its labels, which gives `Shallow` and exclusion; a store then meets no other loaded value |
| C136 | `Client.Rw` (on `RwLock.Full`, `WinRwLock`) | a reader inside excludes writers, so everything stored is ready and nothing is stored while it is inside |
| C137 | `Client.Sem` (on `Sem`, `Client.Win`) | from linearizability (POSIX) or by counting per thread (Windows): successful waits and failed releases are at most the initial value and the calls of release; every thread inside is a wait without a release |
| C138 | `Client.Sem` (on `Sem`, twice) | the same count for both semaphores bounds the distance of the two indices, so the slots of unread items differ from the one being filled |
| C139 | `Client.Event` (on `Event` or `Client.Win`, twice) | as for C137: successful waits and failed fires of an automatic event are at most its start and the calls of fire; then the ring buffer of C138 with one slot |
| C140 | `Client.Event` (on `Event`, `Client.Win`) | as for C137: no wait passes an event that began unsignalled before a call of fire; the program changes the data only before that call |
| C141 | `Crash` (on `Sem`, `Event`) | a killed thread makes no further step, so every such execution is one of the old models; who holds the mutex for ever lets nobody pass; a dead waiter stays counted |
| C142 | `Crash` (on `Mutex.Full`, `RwLock.Full`) | the same for the locks: the labels of a step are those of its thread, so the dead are silent; a silent holder stays holder in the atomic lock |
| C143 | `Crash` (on `Client.Win`) | each operation of the kernel is one step: the value is a function of the effects so far, and a step of a live thread never waits for a dead one |
| C144 | `Crash` (on `WinRwLock`) | as C142, without a limit on the readers: the internal semaphores have one owner each (invariant of C99), and a dead owner never gives it back |
| C145 | `AppInfo.Mac` | `proc_pidpath` as part of the model; the buffer after each step; the ends of C65 |
| C146 | `Timing.Mac` | counts of port rights; the deadline of C70 |
| C147 | `WinLink.Priv` | tokens, handles and references as part of the state of C111; simulation of a system without privileges |
| C148 | `Client.Join` | program over the complete semaphore of C34; units counted against workers that have still to release |
| C149 | `Client.Order` | strong induction along the order over C69 and C103 (nobody waits for a free mutex) and C134 (a thread awake can go on) |
| C150 | `Client.Order` | the argument of C149 over an interface that all four locks are proved to satisfy (`Fits.waits`) |
| C151 | `Client.Nest` | invariant over a program of scripts: the phase of a thread in each mutex is the head of its script and its nesting depths make the rest of the script sensible; then C149 |
| C152 | `Client.Nest` | a measure that every step of a thread makes smaller (an `Unlock` of the holder is not refused), then C151 |

## 4. Disagreements between code and property

Where the code does not have a property, the property is kept as first written, a theorem with suffix `_partial` proves
what does hold, and a separate theorem refutes the rest with a concrete execution of the model.

| id | what the code does | theorem |
|---|---|---|
| C04, C05, C13, C42 | negates the minimum `int64_t` (signed overflow) | `ConvertInt.toString_signed_min_ub`, `FileSize.filesize_signed_min_ub`, `Json.minimum_int_undefined`, `MixedVar.minimum_int_undefined` |
| C06 | the scaled remainder wraps: 1.5 EB prints as 1.02 EB | `FileSize.filesize_wrap_prints` |
| C07, C11 | `AppendStr(Key, Val, Size)` measures only the first character and overflows the buffer; `ResetPos` does not terminate; depth 0 is undefined | `Json.sized_append_overflows`, `Json.resetPos_not_terminated`, `Json.zero_depth_undefined` |
| C08, C12 | a failing `Finish` has already written closers | `Json.failed_finish_changes_text` |
| C09, C10 | slashes are dropped while slash escaping is off; control characters are copied raw | `Json.unescaped_slash_is_lost`, `Json.control_character_breaks_json` |
| C15 | the only node of a list passes the test for detached nodes; detaching twice underflows the count; a list appended to itself loses its nodes | `DList.singleton_not_refused`, `DList.singleton_double_free`, `DList.detach_foreign_corrupts_count`, `DList.self_append_loses_nodes` |
| C17 | the last node of a queue can be pushed again; a queue appended to itself loses its nodes | `Queue.last_node_not_refused`, `Queue.self_append_loses_nodes` |
| C18-C20 | size 0 divides by zero; nodes released by `Empty(false)` keep stale links, so pushing one again breaks the hash (the specification counts that as illegal) | `OrderedHash.size_zero_divides_by_zero`, `OrderedHash.released_nodes_keep_links` |
| C21 | `Find` on a copy or after assigning is NULL; walking a copy backwards reads uninitialised links | `OrderedHash.copy_find_null`, `OrderedHash.assign_find_null`, `OrderedHash.copy_backward_uninit` |
| C22, C23 | in a table of 2^31 nodes the mark of the last bucket is the unset mark: a key with such a hash is found and counted but not shown by going through the hash | `PackedHash.marker_collision`, `PackedHash.large_table_hides` (every hash function, key and value) |
| C24 | the end pointer of the copy loop points into the other array | `PackedHash.copy_never_finishes` |
| C27 | assignment between different dimensions writes through NULL; comparison is never true | `Static2D.assign_different_dims_is_null_write`, `Static2D.eq_never_true` |
| C29 | with fewer replacements allowed than there are occurrences, the data from the first occurrence not replaced on is lost, for all inputs; growth of the plain classes over-reads | `FastFind.limit_loses_tail`, `FastFind.limit_always_loses`, `FastFind.plain_growth_overreads` |
| C33 | `strlen` recurses for ever, the allocating `ConvertFromUTF8` never returns, combining marks are counted | `Utf8.strlen_never_returns`, `Utf8.convert_from_alloc_never_returns`, `Utf8.count_counts_combining` |
| C35 | 2^32 + 1 nested locks and one unlock admit a second holder | `Mutex.exclusion_fails` |
| C37 | 2^32 + 1 read locks and one unlock admit a writer beside the readers | `RwLock.exclusion_fails` |
| C38 | slashes, size rounding, sizes 2^32 apart and long names collide | `ShmName.slash_collides`, `size_collides`, `wide_collides`, `long_collides` |
| C39 | reopening after the last close overruns, unlocks a mutex not held, admits early use; a dead creator blocks all | `NamedMem.reopen_overruns`, `reopen_bad_unlock`, `early_use`, `abandoned_for_ever` |
| C40, C62 | failing large allocations, huge sizes; `dup_malloc` of a block grown by `::realloc` loses its tail | `Tls.large_failure`, `realloc_failure`, `huge_size`, `copy_overflow`, `dup_loses` |
| C41 | prepending to a new variable leaves it unterminated | `MixedVar.prepend_to_new_not_terminated` |
| C43, C44 | leading `..`, base directories with dots, tight buffers, the root; non-ASCII names where `char` is signed | `Path.wrong_parent`, `dotdot_left`, `base_not_resolved`, `cut_off`, `root_is_empty`, `slack_overrun`, `non_ascii_rejected` |
| C46-C49, C64 | wrapping forward seek; interrupted writes; short reads split lines; `Copy` pads to 8192 bytes; a failed lock leaves the file open | `File.seek_wraps`, `write_interrupted_*`, `write_failed_desync`, `short_read_splits`, `default_overreads`, `hint_zero`, `copy_wrong`, `open_failed_open` |
| C52 | `GetBytes` loops for ever on persistent failure | `Csprng.getBytes_never_false` |
| C53, C65 | overflows for particular buffer sizes, empty HOME, no password entry; cut link names | `AppInfo.temp_overflow`, `user_overflow`, `user_empty_home`, `user_no_entry`, `exe_name_cut`, `exe_path_backslash` |
| C54 | `CallVoid` never calls anything | `SharedLib.callVoid_never_invokes` |
| C55 | directories whose names are refused are never emptied | `Dir.rmdir_leaves` |
| C56 | for the root directory the empty path is requested | `Dir.mkdir_root_requests_empty` |
| C58, C59 | `LastPos` is wrong after long sequences; an unpaired high surrogate swallows the terminator | `Utf8.last_pos_wrong`, `Utf8.alloc_unterminated` |
| C60, C61 | an automatic event loses a wake-up after a time-out; a failing clock leaves the semaphore's mutex locked | `Event.auto_lost_wakeup`, `Sem.clock_failure_locks` |
| C71 | the reader-writer lock subtracts elapsed seconds from milliseconds; a clock set back makes it fail | `Timing.limit_exceeded`, `limit_exceeded_always`, `clock_back` |
| C67 | text that fills the variable loses a byte, characters that do not fit are skipped, `AppendUTF8` limits bytes by the number of units | `Utf8Var.set_cuts_character`, `set_skips_character`, `append_drops_character` |
| C68 | the copy constructor frees an uninitialised pointer; `SetSize(0)` on a new variable, a failing allocation and use before `ThreadInit` write through NULL | `TlsVar.copy_undefined`, `set_size_undefined`, `set_failure_undefined`, `no_thread_undefined` |
| C72 | `Chgrp` looks the group name up among the accounts | `FileOps.chgrp_wrong` |
| C73 | a time that is not given loses its fraction of a second | `FileOps.times_truncated` |
| C74 | `Readlink` does not terminate the text | `FileOps.readlink_unterminated` |
| C75 | `Copy` ignores failing reads and writes and returns true, `Move` then deletes the original: data is lost; other lengths are padded | `FileOps.move_loses`, `move_pads`, `copy_pads` |
| C76 | a name that does not fit the buffer ends the list: `Read` returns false as at the end, the names behind it are missing | `DirList.list_cut` |
| C78 | `First()` is never reset by a second `Create`; `GetSize()` keeps the old size after a failing one; a size near 2^64 wraps, `Create` returns true over memory that is too small | `SyncLife.first_stale`, `SyncLife.size_stale`, `SyncLife.size_wraps` |
| C79 | `Create` on a created mutex that nobody holds loses its memory; `Lock` before `Create` uses pointers never set, after a failing `Create` by the holder pointers into memory given back; `Create` by the holder of a named mutex leaves its semaphore down for the other processes for good | `SyncLife.Mtx.create_leaks`, `SyncLife.Mtx.lock_uncreated`, `SyncLife.Mtx.lock_after_failure`, `SyncLife.Mtx.create_keeps_down` |
| C80 | the pthread mutex behind the flag byte at the head of named memory is at offset 4 (the alignment unit is `sizeof(int)`-based), while its type needs 8 on the usual platform | `SyncLife.misaligned` |
| C81 | a replacement that is not longer copies the text onto itself with `memcpy` on every non-empty text that does not begin with `src`, and writes through NULL on a variable without text | `TlsVar.replace_overlaps`, `TlsVar.replace_null` |
| C82 | a character of three or four bytes that does not fit is left out and the shortened path reported as success; `GetTempStorageDir` uses the length of the path in 16-bit units as the size of the buffer, so it overruns small buffers, cuts paths that are not ASCII, and uses an uninitialised array for a path of more than 8191 units; a folder path of which nothing is converted makes it read before the buffer | `WinAppInfo.folder_dir_drops_character`, `temp_dir_overruns`, `temp_dir_cuts`, `temp_dir_too_long`, `folder_dir_empty_reads_before` |
| C83 | a failing `GetModuleFileNameW` gives success with an empty name; characters are left out as in C82 | `WinAppInfo.exe_name_of_failure`, `exe_name_drops_character` |
| C84 | one byte too few is asked for when a prefix is added, so a buffer of exactly the length of the result is overrun by the terminator; `\\?\Volume{` is taken for a network path; a bare `Volume{` is resolved with the length before the prefix was added, so the result is mangled or bytes outside the buffer are moved; a device name directly after a prefix or drive letter is accepted; where `char` is signed every name beyond ASCII is refused | `WinPath.win_name_overruns`, `win_name_volume`, `win_name_bare_volume`, `win_name_reserved`, `win_name_non_ascii` |
| C86 | sizes are cast to 32 bits, so a read or write of a multiple of 4 GiB does nothing and returns true; if `GetFileSize` fails the file is taken for empty; forward seeks wrap at 2^64 | `WinFile.win_read_large`, `win_write_large`, `win_size_unknown`, `win_seek_wraps` |
| C87 | results of `SetEndOfFile` and `Seek` are ignored: `O_TRUNC` without write access returns true with the contents kept but taken for empty, `O_APPEND` keeps the position of the file opened before | `WinFile.win_open_truncate`, `win_open_append` |
| C88 | leading `..`, the host `.`, tight buffers, the root without trailing backslash, drive letters without backslash, uninitialised memory read past the end of the string | `WinAbs.win_absolute_parent`, `win_absolute_host`, `win_absolute_cut`, `win_absolute_root`, `win_absolute_drive`, `win_absolute_slack` |
| C89 | times before 1970 and times that do not fit wrap around | `WinOps.win_time_early`, `win_micro_wraps`, `win_set_times_wraps` |
| C90 | `Chmod` with 0555 or 0 makes a file writable | `WinOps.win_chmod_writable` |
| C91 | a failed `Copy` replaces attributes it could not read | `WinOps.win_copy_loses_attributes` |
| C92 | `Move` of a read-only file onto another reports success, the source stays | `WinOps.win_move_readonly` |
| C93 | a failed `Delete` resets attributes; `Delete` of one name of a file changes what is seen under the other | `WinOps.win_delete_resets`, `win_delete_other_name` |
| C95 | a recursive `Rmdir` does not remove read-only files (`File::Delete` does) and leaves the directory half empty | `WinDir.win_rmdir_readonly` |
| C97 | a current directory of 8192 units or more leaves the buffer unwritten and it is read; an unpaired high surrogate at the end swallows the terminator | `WinDir.win_getcwd_long`, `win_getcwd_unterminated` |
| C98 | a name that fits exactly is refused for ever; with little room characters are left out and true is returned; an unpaired high surrogate at the end swallows the terminator; `Close` after the last name returns false | `WinList.win_read_exact`, `win_read_mangled`, `win_read_unterminated`, `win_close_last` |
| C99 | none for paired calls; unpaired `WriteUnlock` lets a second writer in | `WinRwLock.win_unpaired_breaks` |
| C100 | at 2^31 - 1 read locks a further `ReadLock` without time limit keeps both mutexes while it waits, so no `ReadUnlock` ever returns; after a failing `SetEvent` writers wait for ever | `WinRwLock.win_limit_deadlock`, `win_set_failure_blocks` |
| C101 | with 2^32 + 1 nested locks one `Unlock` gives the mutex away | `WinMutex.win_exclusion_fails` |
| C102 | the first `Lock` after the end of the holder returns false although it acquires the kernel mutex, which then blocks the others; a new thread with the old id locks without acquiring | `WinMutex.win_mutex_abandoned_blocks`, `win_id_reused` |
| C103 | a failing `ReleaseMutex` is ignored and blocks everybody | `WinMutex.win_mutex_release_failure` |
| C105 | `Mutex::Create` on a created mutex loses the old handle | `WinSync.win_mutex_create_leaks` |
| C106 | sizes are cut to `DWORD`, so 2^32 + 5 bytes are 5 bytes, shared with an object of 5 bytes; when the first object fails to map, the next is not First; `GetSize` after a failed `Create` is stale; `Name2` is lost when creating and opening fail | `WinSync.win_mem_size_false`, `win_mem_shared_false`, `win_mem_nobody_first`, `win_mem_stale_size`, `win_mem_block_lost` |
| C107 | kernel names are shared between classes | `WinSync.win_shared_other_class`, `win_name_clash` |
| C109 | `WriteLock`, `ReadUnlock`, `WriteUnlock` go ahead on a lock whose `Create` failed | `WinSync.win_rw_idle_false`, `win_rw_idle_unlock_false` |
| C110 | `SubstituteNameOffset` and `SubstituteNameLength` count bytes, the code uses them as characters: wrong text for symbolic links, over-read for long targets, more room needed than the target takes | `WinLink.win_readlink_relative`, `win_readlink_absolute`, `win_readlink_overread`, `win_readlink_tight` |
| C111 | a relative target is looked for below the link instead of beside it | `WinLink.win_symlink_relative` |
| C112 | a relative symbolic link is read as the empty name (as in C110), so no path over it has a real name; `Filename3[x2++] = 0` with `x2` = 8192; the final `Exists` refuses bytes above 127 where `char` is signed | `WinReal.win_realpath_relative_link`, `win_realpath_overrun`, `overrun_case`, `win_realpath_signed` |
| C113 | `Size` leaves out the mark byte of each block; `1 << Num` with an `int` | `Tls.bucket_size_short`, `bucket_overflow` |
| C114 | `StartTime` and `CurrTime` are seconds, taken as milliseconds: the waits may take three times (`ReadLock`) or twice (`WriteLock`) the limit; a clock set back ends the call at once | `WinTiming.win_read_limit_exceeded`, `win_write_limit_exceeded`, `win_early`, `win_clock_back` |
| C116 | `(ULONG)Size` cuts the size to 32 bits: a request of 4 GiB or more is reported as successful although only `Size mod 2^32` bytes are generated | `WinCsprng.win_getBytes_short`, `win_getBytes_spec_fails` |
| C118 | the search compares the first byte of a sequence with the code point and reports the position after the following sequence; combining marks are never seen because only a first byte is tested | `Utf8.find_is_partial`, `find_never_wide`, `find_position`, `next_ascii_combining` |
| C119 | `FindNext` does not move the source position, so leaving a match alone writes the text in front of it again; `SetData` does not free the block of earlier data | `FastFind.leaving_repeats`, `FastFind.new_data_leaks` |
| C120 | `InternalResizeHash` does not free the array it replaces | `PackedHash.growth_leaks` |
| C121 | (not a defect: documented) a block freed by another thread is written beyond its end | `Tls.freed_elsewhere` |
| C124 | `Wait(0)` takes the internal mutex with `pthread_mutex_trylock` (sync_util.cpp:372-376, 510-514) and reports failure if another thread is inside at that moment, even if the semaphore has units for both or the manual event is signalled all the time | `Sem.try_fails_with_units`, `Event.try_fails_signalled` |
| C125 | adding a key packs a full array that has empty places (packed_ordered_hash_util.h:192, 375-412, 421-428); positions held by a caller then point further along and an iteration misses entries | `PackedHash.iteration_skips`; excluded in the quantifier of C125 |
| C126 | `ResizeNumUsed40` is 80 % of the table (`(NumNodes << 3) / 10`, packed_ordered_hash_util.h 524) and is tested after `NumUsed < 90 %` returned (423-424), so `AutoResizeHash` never shrinks; `CompactNextNodePos75` is 87.5 % (522) | `PackedHash.auto_never_shrinks`, `shrink_rule_broken`, `should_optimize_not_75`; C126 partial |
| C127 | after `ResizeHash` with fewer slots than nodes the table grows by one prime per insertion (detachable_ordered_hash_util.h 289, 524), also from 1 to 3 slots with a million nodes | `OrderedHash.shrunk_table_lags`; excluded in the quantifier of C127 |
| C128 | the comment of `SetStrKey` (detachable_ordered_hash.h 89-91) only asks for `SetStrKey(NULL, 0, false)` after storing a pointer; if the node had a private copy before, that copy is lost all the same | `OrderedHash.KeyMem.documented_use_leaks`; excluded in the quantifier of C128 |
| C129 | a node keeps the hash value cached by the last hash, also by one that refused it (detachable_ordered_hash_util.h 261-265 before the search at 267); `Push` of a refused node into a hash with other hash keys makes a node that `Find` does not find | `OrderedHash.moved_node_lost`, `OrderedHash.refused_node_lost`; part of the claim |
| C130 | `AutoFree` after `ThreadEnd` leaks silently: `free` returns at once when the thread has no cache (sync_tls.cpp 166-167), where C code would free; sync_tls.h 46 only recommends braces | `Tls.Scope.guard_after_thread_end_leaks`; part of the claim |
| C132 | `Mutex::Lock` does not test the result of its second `pthread_mutex_lock` (sync_mutex.cpp 224): if that fails the call writes `MxOwnerID` and `MxCount` without the lock, races with other calls and unlocks a mutex it does not hold | `Race.unchecked_lock_races`, `Race.unchecked_lock_undefined` |
| C133 | `WriteLock` gets no precedence while it waits for the write mutex (sync_readwritelock.cpp 308): the semaphore gives its unit to whoever takes the pthread mutex first (sync_util.cpp 372-401), so a reader that locks and unlocks in a loop can keep a writer out for ever, in spite of the comments in lines 77 and 267 | `RwLock.Full.reader_gets_ahead`, `RwLock.Full.round_turn` |
| C134 | when the clock call of a timed wait fails, `WaitForUnixSemaphore` returns with the mutex locked (sync_util.cpp 414), and every later call on the semaphore, or on a mutex or read/write lock built on it, waits for ever | `Progress.clock_failure_deadlocks` |
| C141 | A process killed inside a call of a named semaphore or event blocks it for all others for ever (the internal mutex is not robust), and one killed while it sleeps in `Wait` of an automatic event leaves `MxWaiting` above zero, after which `Wait(0)` never succeeds (`sem_killed_inside`, `ev_killed_inside`, `ev_killed_asleep`). |
| C142 | A process killed while it has a named POSIX mutex or a lock of a named POSIX reader-writer lock has it for ever, unlike on Windows (C102): nobody else can lock the mutex, after a writer nobody can read or write, after a reader nobody can write. A writer killed while it waits for readers to leave blocks everybody too (`mutex_killed_holder`, `rw_killed_writer`, `rw_killed_reader`, `rw_killed_midway`). |
| C144 | On Windows too a thread killed while it has a lock of a reader-writer lock, or in the middle of a call, blocks others for ever: the internal mutexes are semaphores (sync_readwritelock.cpp 51-59), which are not abandoned like the kernel mutex of C102 (`win_rw_killed_writer`, `win_rw_killed_reader`, `win_rw_killed_midway`, `win_rw_killed_leaving`). |
| C145 | On macOS an empty buffer is read by `strlen` (utf8_appinfo.cpp 126), `proc_pidpath` refuses buffers of less than 1024 bytes and returns 0, not -1, for that, and a name read by `readlink` is not terminated before `strlen` (`mac_empty_buffer`, `mac_small_buffer`, `mac_link_unterminated`). |
| C146 | On macOS each timed wait keeps a right to the host port, and a failing clock one to the clock port (sync_util.cpp 69-71; `mac_host_port_kept`, `mac_clock_port_kept`); deadlines wrap in 2106 (`mac_clock_wraps`). |
| C147 | `Symlink` on Windows leaves the privilege enabled and keeps a reference to KERNEL32.DLL (utf8_file_dir.cpp 884-889; `symlink_leaves_on`, `symlink_library_kept`); where the token of the thread exists but may not be opened, the process's is changed (865-868; `privilege_wrong_token`). |
| C148 | `ReleaseUnixSemaphore` on a full semaphore returns true though the unit is lost, so releases are not counted reliably; `Semaphore::Create` makes full ones (`join_lost`, `join_created_lost`). |
| C149 | After a failing clock in `WaitForUnixSemaphore` (sync_util.cpp 414) the semaphore's mutex stays locked, so the order does not help (`clock_failure_deadlocks`). |
| C150 | A reader that asks for its read lock again while a writer waits blocks for ever (`reread_deadlock`); the lock is not re-entrant for readers. |
| C151 | As C149: a failing clock in `WaitForUnixSemaphore` leaves the semaphore's mutex locked. |
| C152 | As C103: a failing `ReleaseMutex` is ignored and the mutex stays locked. |

Two facts that do not contradict a property as written: a release on a semaphore with maximum 0xFFFFFFFF that is full
resets its count to 0 (`Sem.release_wraps`); a failing `Fire` in the last `ReadUnlock` locks writers out
(`RwLock.fire_failure_blocks`).

**Property texts changed after the first version.**  C25: the operations were named wrongly, and the caller's hash must
depend only on the key.  C30, C31: a combining mark at the start of the output is excepted, which the code tests for
explicitly; the first wording was false for it.  C35: objects sharing one mutex were added.  (For a time C35 was also
restricted to shallow nesting and counted as proved; the restriction is out again and the claim is partial.)  C11, C17-C20,
C22, C23, C37 and C56 were counted as proved in earlier commits although their theorems have restrictions the texts do not
have; they are partial now and the theorems carry the suffix.  `seeded/LOG.jsonl` entries made before that use the old names.

## 5. Component notes

The header comment of each `Model.lean` lists what is modelled and simplified there.  In short:

* Modelled: `convert/convert_int.cpp`; `json/json_serializer.*`; `security/security_csprng.cpp` (both branches);
  `templates/`: `detachable_list*`, `detachable_queue*`, `detachable_ordered_hash*`, `packed_ordered_hash*`, `cache*`,
  `static_vector.h`, `static_2d_array.h`, `static_mixed_var.h`, `fast_find_replace*`, `shared_lib*` (both branches, `SharedLib` and `SharedLife`);
  `utf8/utf8_util.cpp`; `utf8/utf8_mixed_var.h`; of `utf8/utf8_file_dir.cpp` (POSIX) the paths, `File` reading, writing, seeking, lines, copying, moving,
  loading, permissions, owners, times, links, `Dir::Mkdir`/`Rmdir` and listing a directory, and (Windows) opening, reading, writing and seeking of `File`, `GetPlatformFilename`, `GetPlatformFilenameInfo`, `GetAbsoluteFilename`, the operations by name (`WinOps`), `Readlink` and `Symlink` (`WinLink`), `Realpath` (`WinReal`), `Dir::Mkdir`/`Rmdir`/`Getcwd` (`WinDir`), listing a directory (`WinList`), the calls of `Sync::ReadWriteLock` (`WinRwLock`) and of `Sync::Mutex` (`WinMutex`), and the lives and names of all sync objects with the calls of semaphores and events (`WinSync`; one call at a time, as each is one system call); `utf8/utf8_appinfo.cpp` (POSIX, macOS and Windows); the clock of `environment/environment_appinfo.cpp`; of `sync/` the POSIX semaphore, event, mutex,
  reader-writer lock, named memory, the thread-local allocator and its mixed variables.
* Not modelled: every Windows branch but those named above; `GetCurrentProcessID` and `GetCurrentThreadID`.  `SyncLife` models constructors, `Create` and destructors of the sync classes and `SharedMem` call by call;
  what a call on a created object does is in `Sem`, `Event`, `Mutex`, `RwLock`.
* Atomicity by composition: `Mutex` and `RwLock` take semaphore and event operations as single steps.  `Mutex.Full` and
  `RwLock.Full` run the same code on the real semaphores and event of `Sem` and `Event`, all steps interleaved; the theorems
  `full_refines` show that every such execution has the labels of an execution on atomic objects, and the exclusion and
  linearizability theorems are restated for it.  C69 (nobody waits for a free lock) is proved there directly, for executions
  without failing system calls (`RwLock.Full.faults`).
* `WinOps`: the file system and the system calls are part of the model: what `SetFileAttributesW`, `CopyFileW`, `MoveFileW`, `DeleteFileW` and
  `SetFileTime` do is taken from their documentation (module comment of `WinOps/Model.lean`), and every call may be refused besides.
  Names are compared exactly, links are not followed by `Copy` and `Move`, and nobody else changes the file system during a call.
* `WinLink` and `WinReal` (Readlink, Symlink, Realpath on Windows) take the system's answers to reparse-point and directory queries as parameters; `WinTiming` runs one call of the reader-writer lock against waits of any length and any clock.
* `Tls.Threads` interleaves whole calls of several threads on one allocator: a call touches only the thread's own cache and the system's heap, which serves all threads.  The vector of buckets itself is not part of the heap.  `Csprng.Life` has the table of descriptors of the process; the system may choose any unused descriptor.
* The grammar of C09 leaves out `\u` escapes, which the serializer never writes (a backslash in its output is always followed by one of the eight short escapes).  `Json.text_unique` shows that it reads every text in at most one way.
* `Guard`: each destructor of a lock guard is one call of the operation it is named after; when C++ runs destructors (end of a block, early exit from several blocks, innermost first) is part of the model, and so is the form in which guards are used.  A guard constructed without a successful lock is not modelled.  `TLS::AutoFree` is in `Tls.Scope`, in the same way.
* `WinCsprng` and `SharedLife` take the generator's and the loader's answers as parameters; a failing `RtlGenRandom` is taken to leave the buffer alone, and a function address is a pair of library and symbol.
* `WinDir`: the theorems about requests hold for every system. The tree used for the results distinguishes upper and lower case (Windows does not), so two names that differ only in case are different entries there; `FindFirstFileW` gives all entries at once.
* Alignment is not modelled.  Two places matter in ISO C++: word reads of unaligned keys (`HashFn`), and the layout of named
  objects, whose alignment unit may be 4 bytes so that a `pthread_mutex_t` can be misaligned (C80).
* `Legal` histories (lists, queues, hashes, JSON) exclude calls on nodes that do not exist or are in the wrong state and the
  undefined calls named in section 4.

## 6. What the mutation log shows

An entry of `seeded/LOG.jsonl` says that after the edit the listed lemmas or theorems no longer check.  That is weaker than
"the theorem is false of the edited model": a proof script can also break on an edit that leaves the statement true.  Edits
after which everything still checked were either tightened against (`theorems_tightened`) or are logged with an empty
`theorems_failed` and a text saying why no claim is broken.  Builds that ran out of time are not logged.
