{
 "claims": [
  {
   "property": "C01",
   "status": "proved",
   "theorems": [
    "Verif.ConvertInt.toString_roundtrip"
   ],
   "note": "All buffers, numbers, separators, radixes."
  },
  {
   "property": "C02",
   "status": "proved",
   "theorems": [
    "Verif.ConvertInt.toString_fits_iff"
   ],
   "note": "No out-of-bounds outcome for any input; success iff valid radix and the (unique) rendering fits."
  },
  {
   "property": "C03",
   "status": "proved",
   "theorems": [
    "Verif.ConvertInt.toString_grouping"
   ],
   "note": "Separator placement is the independent function group of ConvertInt/Spec."
  },
  {
   "property": "C04",
   "status": "partial",
   "theorems": [
    "Verif.ConvertInt.toString_signed_partial",
    "Verif.ConvertInt.toString_signed_min_ub",
    "Verif.ConvertInt.toString_signed_min_fails"
   ],
   "note": "Right for every number except INT64_MIN; there the code negates the minimum (signed overflow, undefined behaviour), proved as negation."
  },
  {
   "property": "C05",
   "status": "partial",
   "theorems": [
    "Verif.FileSize.filesize_in_bounds",
    "Verif.FileSize.filesize_signed_in_bounds_partial",
    "Verif.FileSize.filesize_signed_min_ub"
   ],
   "note": "Unsigned version: full claim for all inputs. Signed version: all numbers except INT64_MIN (negation overflow)."
  },
  {
   "property": "C06",
   "status": "partial",
   "theorems": [
    "Verif.FileSize.filesize_value_partial",
    "Verif.FileSize.filesize_signed_value_partial",
    "Verif.FileSize.filesize_wrap_prints",
    "Verif.FileSize.filesize_wrap_fails"
   ],
   "note": "Right whenever the scaled remainder fits in 64 bits; otherwise the code is wrong: 1.5 EB is printed as 1.02 EB (negation proved)."
  },
  {
   "property": "C07",
   "status": "partial",
   "theorems": [
    "Verif.Json.writes_stay_inside_partial",
    "Verif.Json.sized_append_overflows",
    "Verif.Json.resetPos_not_terminated",
    "Verif.Json.zero_depth_undefined"
   ],
   "note": "Every legal history stays inside the buffer and is terminated once something was written since the last position reset. Missing: AppendStr(Key, Val, Size) measures only the first character and overflows (sized_append_overflows), the minimum int64 is excluded, and SetBuffer/ResetPos do not terminate (resetPos_not_terminated)."
  },
  {
   "property": "C08",
   "status": "partial",
   "theorems": [
    "Verif.Json.failed_call_no_effect_partial",
    "Verif.Json.failed_finish_changes_text"
   ],
   "note": "All calls but Finish, in every state. A failing Finish has already written closers (failed_finish_changes_text)."
  },
  {
   "property": "C09",
   "status": "partial",
   "theorems": [
    "Verif.Json.finished_text_is_document_partial",
    "Verif.Json.control_character_breaks_json",
    "Verif.Json.unescaped_slash_is_lost",
    "Verif.Json.finished_text_reads_back_partial"
   ],
   "note": "Strings without other control characters and without slashes while slash escaping is off, proper splitters, raw data that is JSON-neutral, doubles printed as JSON numbers. Both string restrictions are necessary (negation witnesses). finished_text_reads_back_partial: the grammar is unambiguous, so the text denotes the document and nothing else."
  },
  {
   "property": "C10",
   "status": "partial",
   "theorems": [
    "Verif.Json.string_escaping_round_trips_partial",
    "Verif.Json.unescaped_slash_is_lost",
    "Verif.Json.control_character_breaks_json"
   ],
   "note": "Clean strings only; witnesses show the code loses slashes and copies control characters."
  },
  {
   "property": "C11",
   "status": "partial",
   "theorems": [
    "Verif.Json.structure_enforced_partial",
    "Verif.Json.sized_append_overflows",
    "Verif.Json.minimum_int_undefined"
   ],
   "note": "Every history of calls that have defined behaviour: AppendStr(Key, Val, Size) only where the code measures the text correctly, AppendInt not with the minimum int64_t. The two excluded calls are undefined behaviour in the code (sized_append_overflows, minimum_int_undefined), so \"every history\" is false."
  },
  {
   "property": "C12",
   "status": "partial",
   "theorems": [
    "Verif.Json.finish_closes_all_partial",
    "Verif.Json.failed_finish_changes_text"
   ],
   "note": "Everything but \"changing nothing\" on failure, which is false (failed_finish_changes_text)."
  },
  {
   "property": "C13",
   "status": "partial",
   "theorems": [
    "Verif.Json.integers_exact_partial",
    "Verif.Json.minimum_int_undefined"
   ],
   "note": "Every 64-bit value but the minimum int64_t, whose negation is undefined (minimum_int_undefined)."
  },
  {
   "property": "C14",
   "status": "proved",
   "theorems": [
    "Verif.DList.list_is_sequence"
   ],
   "note": "Refinement of a heap model of List<T> by an abstract state of sequences, for every legal history over any number of lists; walks in both directions, size, and exact ownership of nodes."
  },
  {
   "property": "C15",
   "status": "partial",
   "theorems": [
    "Verif.DList.detach_reattach_partial",
    "Verif.DList.singleton_not_refused",
    "Verif.DList.singleton_double_free",
    "Verif.DList.detach_foreign_corrupts_count",
    "Verif.DList.self_append_loses_nodes"
   ],
   "note": "Full claim fails in the code: a node that is the only one in its list passes the attached test (witnesses). Proved: detach / re-insert for every list and position, and refusal for nodes that have a neighbour."
  },
  {
   "property": "C16",
   "status": "proved",
   "theorems": [
    "Verif.DList.copy_equals_source",
    "Verif.DList.lists_independent"
   ],
   "note": "Copy construction and assignment for every source and destination after any legal history; independence of all other calls."
  },
  {
   "property": "C17",
   "status": "partial",
   "theorems": [
    "Verif.Queue.queue_is_sequence_partial",
    "Verif.Queue.fifo",
    "Verif.Queue.last_node_not_refused",
    "Verif.Queue.self_append_loses_nodes"
   ],
   "note": "Refinement for every legal history over any number of queues; FIFO order as a corollary (fifo, no restriction). Missing, and false in the code: inserting the last node of a queue again is not refused although other attached nodes are (last_node_not_refused), and a queue appended to itself loses its nodes (self_append_loses_nodes)."
  },
  {
   "property": "C18",
   "status": "partial",
   "theorems": [
    "Verif.OrderedHash.ordered_hash_is_map_partial",
    "Verif.OrderedHash.lookup_spec",
    "Verif.OrderedHash.insert_refused_iff_partial",
    "Verif.OrderedHash.size_zero_divides_by_zero",
    "Verif.OrderedHash.released_nodes_keep_links"
   ],
   "note": "Refinement for every hash function, every initial size >= 1 and every legal history, Empty(false) included. Missing, and false in the code: with size 0 the first call divides by zero (size_zero_divides_by_zero); nodes handed back by Empty(false) keep stale links, and inserting one of them at the front or at the end again breaks the hash (released_nodes_keep_links)."
  },
  {
   "property": "C19",
   "status": "partial",
   "theorems": [
    "Verif.OrderedHash.insert_order_partial",
    "Verif.OrderedHash.detach_order_partial",
    "Verif.OrderedHash.size_zero_divides_by_zero",
    "Verif.OrderedHash.released_nodes_keep_links"
   ],
   "note": "Every hash function, every initial size >= 1, every legal history. Missing, and false in the code: initial size 0, and pushing or unshifting a node that Empty(false) handed back (see C18)."
  },
  {
   "property": "C20",
   "status": "partial",
   "theorems": [
    "Verif.OrderedHash.resize_invisible_partial",
    "Verif.OrderedHash.table_invisible_partial",
    "Verif.OrderedHash.size_zero_divides_by_zero",
    "Verif.OrderedHash.released_nodes_keep_links"
   ],
   "note": "Every hash function, every initial size >= 1, every table reached by a legal history, every new size (size 0 is refused). Missing: tables made with size 0, on which Find divides by zero before the resize, and histories in which a node handed back by Empty(false) is pushed or unshifted (see C18)."
  },
  {
   "property": "C21",
   "status": "partial",
   "theorems": [
    "Verif.OrderedHash.copy_forward_partial",
    "Verif.OrderedHash.copy_find_null",
    "Verif.OrderedHash.copy_backward_uninit",
    "Verif.OrderedHash.assign_forward_partial",
    "Verif.OrderedHash.assign_find_null"
   ],
   "note": "Proved, for copying and for assigning: forward iteration shows the same keys and values, nodes of the target are deleted. Refuted by the code: Find on every copy and on every target of an assignment returns NULL, and the backward walk depends on uninitialised memory."
  },
  {
   "property": "C22",
   "status": "partial",
   "theorems": [
    "Verif.PackedHash.packed_hash_is_map_partial",
    "Verif.PackedHash.find_returns_last_value_partial",
    "Verif.PackedHash.put_order",
    "Verif.PackedHash.marker_collision",
    "Verif.PackedHash.large_table_hides"
   ],
   "note": "All histories of Set/Set with value/Unset/Find/ResizeHash/Optimize/AutoResizeHash/GetNumUsed with any hash function, for an initial size up to 2^30 and while fewer than 966,367,642 keys are present when one is added. Missing: larger tables; marker_collision shows that at 2^31 nodes an index is taken for an end marker."
  },
  {
   "property": "C23",
   "status": "partial",
   "theorems": [
    "Verif.PackedHash.compaction_invisible_partial",
    "Verif.PackedHash.packed_table_invisible_partial",
    "Verif.PackedHash.get_after_optimize_partial",
    "Verif.PackedHash.marker_collision",
    "Verif.PackedHash.large_table_hides"
   ],
   "note": "Within the limits of C22 (initial size up to 2^30, fewer than 966,367,642 keys when one is added). Missing: larger tables, where marker_collision applies."
  },
  {
   "property": "C24",
   "status": "partial",
   "theorems": [
    "Verif.PackedHash.copy_rounds_partial",
    "Verif.PackedHash.copy_never_finishes",
    "Verif.PackedHash.assign_never_finishes",
    "Verif.PackedHash.assign_self"
   ],
   "note": "The code violates the property: the end pointer of the copy loop points into the other array, so every copy has undefined behaviour (copy_never_finishes). copy_rounds_partial: after as many rounds as there are positions the copy is right. Missing: termination of the loop."
  },
  {
   "property": "C25",
   "status": "proved",
   "theorems": [
    "Verif.Cache.cache_correct",
    "Verif.Cache.run_unique",
    "Verif.Cache.zero_slots_undefined"
   ],
   "note": "All histories on any number of caches of at least one slot; node arrays are values in the model."
  },
  {
   "property": "C26",
   "status": "proved",
   "theorems": [
    "Verif.StaticVector.staticVector_refines"
   ],
   "note": "Refinement of every legal history of constructor, copy, assignment, destructor, element access, comparison and size to plain lists; no invalid memory access."
  },
  {
   "property": "C27",
   "status": "partial",
   "theorems": [
    "Verif.Static2D.static2D_refines_partial",
    "Verif.Static2D.assign_different_dims_is_null_write",
    "Verif.Static2D.assign_spec_fails",
    "Verif.Static2D.eq_never_true"
   ],
   "note": "Holds for all histories without comparison and without assignment between different non-empty dimensions. The code writes through NULL on such assignments and its comparison can never report equality for two or more columns; both are proved."
  },
  {
   "property": "C28",
   "status": "proved",
   "theorems": [
    "Verif.FastFind.finds_exactly",
    "Verif.FastFind.finder_refines",
    "Verif.FastFind.spec_total"
   ],
   "note": "All patterns, data and histories of SetPattern/SetData/FindNext/SkipMatch; memcmp comparison assumed to be used only where == is identity of the elements."
  },
  {
   "property": "C29",
   "status": "partial",
   "theorems": [
    "Verif.FastFind.replace_all_partial",
    "Verif.FastFind.replace_all_plain_partial",
    "Verif.FastFind.static_replace_all_partial",
    "Verif.FastFind.empty_pattern_copies",
    "Verif.FastFind.sizes_up_to_zero",
    "Verif.FastFind.replaced_exists",
    "Verif.FastFind.replaced_unique",
    "Verif.FastFind.limit_loses_tail",
    "Verif.FastFind.plain_growth_overreads",
    "Verif.FastFind.sizes_explicit",
    "Verif.FastFind.cut_replaced",
    "Verif.FastFind.cut_rest",
    "Verif.FastFind.cut_or_replaced",
    "Verif.FastFind.replace_all_limit_partial",
    "Verif.FastFind.limit_always_loses",
    "Verif.FastFind.static_limit_partial"
   ],
   "note": "Full for at most `limit` occurrences. With more occurrences than the limit the code loses everything from the next occurrence on: proved for all inputs (replace_all_limit_partial, static_limit_partial, limit_always_loses), so the property is false there. Also false: large growth in the plain classes (memcpy over-reads, plain_growth_overreads)."
  },
  {
   "property": "C30",
   "status": "proved",
   "theorems": [
    "Verif.Utf8.append_code_point",
    "Verif.Utf8.append_code_point_count",
    "Verif.Utf8.enc8_standard"
   ],
   "note": "The specification form is proved equal to the one of Lean core String.utf8EncodeChar."
  },
  {
   "property": "C31",
   "status": "proved",
   "theorems": [
    "Verif.Utf8.round_trip",
    "Verif.Utf8.counted_sizes",
    "Verif.Utf8.utf8_unchanged"
   ],
   "note": ""
  },
  {
   "property": "C32",
   "status": "proved",
   "theorems": [
    "Verif.Utf8.convert_to_safe",
    "Verif.Utf8.convert_from_safe",
    "Verif.Utf8.convert_to_keeps"
   ],
   "note": "size_t arithmetic is unbounded in the model; the destination size given must not exceed the buffer."
  },
  {
   "property": "C33",
   "status": "partial",
   "theorems": [
    "Verif.Utf8.strlen_never_returns",
    "Verif.Utf8.convert_from_alloc_never_returns",
    "Verif.Utf8.count_partial",
    "Verif.Utf8.count_counts_combining",
    "Verif.Utf8.find_misses",
    "Verif.Utf8.walk_ascii_partial"
   ],
   "note": "Fails: Util::strlen calls itself through NextCodePoint and never returns. With the C library strlen in its place it counts code points, so combining marks are counted too."
  },
  {
   "property": "C34",
   "status": "proved",
   "theorems": [
    "Verif.Sem.no_ub",
    "Verif.Sem.linearizable",
    "Verif.Sem.conserved",
    "Verif.Sem.bounded",
    "Verif.Sem.wait_succeeds",
    "Verif.Sem.try_fails",
    "Verif.Sem.release_gives",
    "Verif.Sem.release_wakes",
    "Verif.Sem.release_wraps"
   ],
   "note": "The semaphore code at the granularity of single memory accesses and pthread calls, any number of threads, every interleaving, spurious wake-ups, time-outs and failing calls included. Counts are 32-bit: release_wraps shows that with maximum 0xFFFFFFFF a release on a full semaphore resets the count to 0."
  },
  {
   "property": "C35",
   "status": "partial",
   "theorems": [
    "Verif.Mutex.no_ub",
    "Verif.Mutex.linearizable_partial",
    "Verif.Mutex.exclusive_partial",
    "Verif.Mutex.relock_partial",
    "Verif.Mutex.excluded_partial",
    "Verif.Mutex.unlock_refused_partial",
    "Verif.Mutex.unlock_frees_partial",
    "Verif.Mutex.unlock_nested_partial",
    "Verif.Mutex.lock_free",
    "Verif.Mutex.exclusion_fails",
    "Verif.Mutex.Full.full_refines",
    "Verif.Mutex.Full.full_linearizable_partial",
    "Verif.Mutex.Full.full_exclusive_partial",
    "Verif.Mutex.Full.full_no_lost_wakeup_partial"
   ],
   "note": "Steps of single accesses to MxOwnerID and MxCount. The full_ theorems run the code on the real semaphore of C34 instead of an atomic one; full_no_lost_wakeup_partial also shows that nobody waits for a free mutex. Any number of threads and objects, every interleaving in which no thread nests its locks 2^32 - 1 deep. Missing, and false in the code: deeper nesting, the 32-bit counter wraps and two threads hold the mutex (exclusion_fails). no_ub and full_refines have no restriction."
  },
  {
   "property": "C36",
   "status": "proved",
   "theorems": [
    "Verif.Event.no_ub",
    "Verif.Event.linearizable",
    "Verif.Event.auto_conserved",
    "Verif.Event.manual_open",
    "Verif.Event.auto_open",
    "Verif.Event.closed",
    "Verif.Event.reset_closes",
    "Verif.Event.reset_refused",
    "Verif.Event.fire_signals",
    "Verif.Event.waiting_exact"
   ],
   "note": "Event code at the granularity of single memory accesses and pthread calls, any number of threads, every interleaving."
  },
  {
   "property": "C37",
   "status": "partial",
   "theorems": [
    "Verif.RwLock.one_writer_partial",
    "Verif.RwLock.no_reader_partial",
    "Verif.RwLock.linearizable_partial",
    "Verif.RwLock.write_free",
    "Verif.RwLock.read_free",
    "Verif.RwLock.unpaired_breaks",
    "Verif.RwLock.unpaired_read_breaks",
    "Verif.RwLock.fire_failure_blocks",
    "Verif.RwLock.Full.full_refines",
    "Verif.RwLock.Full.full_one_writer_partial",
    "Verif.RwLock.Full.full_no_reader_partial",
    "Verif.RwLock.Full.full_linearizable_partial",
    "Verif.RwLock.exclusion_fails"
   ],
   "note": "Any number of threads, every interleaving of paired calls, every wait/release/fire/reset may fail. The full_ theorems run the code on the real semaphores and event of C34 and C36 instead of atomic ones. Missing, and false in the code: 2^32 - 1 or more readers inside at once; the 32-bit counter wraps and a writer gets in beside readers (exclusion_fails). unpaired_breaks and unpaired_read_breaks show that pairing is needed."
  },
  {
   "property": "C38",
   "status": "partial",
   "theorems": [
    "Verif.ShmName.accepted",
    "Verif.ShmName.same_object_partial",
    "Verif.ShmName.by_name_partial",
    "Verif.ShmName.fits_216",
    "Verif.ShmName.slash_collides",
    "Verif.ShmName.size_collides",
    "Verif.ShmName.wide_collides",
    "Verif.ShmName.long_collides",
    "Verif.ShmName.one_character_partial"
   ],
   "note": "The object name is valid and in bounds for every kind, size and name. For texts that fit SHM_NAME_MAX, two opens reach the same object iff kind, number of allocation units and name (up to / \\\\ _) agree. For names of any length, a change of one character in its low six bits gives another object (one_character_partial). The full claim is false: slashes, rounding of sizes, sizes 2^32 apart and long names collide (witnesses proved)."
  },
  {
   "property": "C39",
   "status": "partial",
   "theorems": [
    "Verif.NamedMem.no_ub_partial",
    "Verif.NamedMem.init_once_partial",
    "Verif.NamedMem.opened_initialised_partial",
    "Verif.NamedMem.use_initialised_partial",
    "Verif.NamedMem.own_memory_partial",
    "Verif.NamedMem.kept_of",
    "Verif.NamedMem.reopen_overruns",
    "Verif.NamedMem.reopen_ub",
    "Verif.NamedMem.reopen_bad_unlock",
    "Verif.NamedMem.early_use",
    "Verif.NamedMem.abandoned_for_ever"
   ],
   "note": "Every interleaving of opens, closes, failures and crashes in which some handle keeps the object open from its creation on. The full claim is false: after every handle closed it, the next open writes StartPos bytes too many, unlocks a mutex it does not hold, and a third handle can use the object uninitialised; a creator that dies early makes all later opens hang (proved)."
  },
  {
   "property": "C40",
   "status": "partial",
   "theorems": [
    "Verif.Tls.allocator_partial",
    "Verif.Tls.large_failure",
    "Verif.Tls.realloc_failure",
    "Verif.Tls.huge_size",
    "Verif.Tls.copy_overflow"
   ],
   "note": "Every history of malloc/realloc/free/reads/writes obeying the rules; system failures for large blocks, sizes over 2^63 and >31 buckets with blocks over 2^30 break it."
  },
  {
   "property": "C41",
   "status": "partial",
   "theorems": [
    "Verif.MixedVar.strings_truncated_safely_partial",
    "Verif.MixedVar.prepend_to_new_not_terminated"
   ],
   "note": "Every history of the modifying calls on a buffer of any size with any initial garbage stays inside the buffer and the text evolves as specified. Partial: the terminator is guaranteed only once a Set/Append call has been made (Prepend to a new variable leaves garbage after the text, proved), the minimum int64 and radix 0 are excluded."
  },
  {
   "property": "C42",
   "status": "partial",
   "theorems": [
    "Verif.MixedVar.values_round_trip",
    "Verif.MixedVar.strings_round_trip",
    "Verif.MixedVar.appended_integer_is_numeral_partial",
    "Verif.MixedVar.minimum_int_undefined",
    "Verif.MixedVar.radix_zero_undefined",
    "Verif.MixedVar.values_kept"
   ],
   "note": "Values, strings and numerals. Partial: the minimum int64 and radix 0 are undefined behaviour (proved); numerals of more than 43 characters are silently not appended (in the statement)."
  },
  {
   "property": "C43",
   "status": "partial",
   "theorems": [
    "Verif.Path.absolute_partial",
    "Verif.Path.absolute_accepts_partial",
    "Verif.Path.absolute_untrailed_partial",
    "Verif.Path.wrong_parent",
    "Verif.Path.dotdot_left",
    "Verif.Path.base_not_resolved",
    "Verif.Path.cut_off",
    "Verif.Path.root_is_empty",
    "Verif.Path.slack_overrun"
   ],
   "note": "GetAbsoluteFilename as a whole, any base directory, name, buffer size. With trailing slash: true means an absolute path that fits without empty, dot and dot-dot components; equal to the resolved name unless the base directory has dot components or the relative name begins with one. Missing: exactly these cases and tight buffers or the root without trailing slash; each has a proved counterexample. The uninitialised local buffer is read past its end if it happens to be full of slashes (slack_overrun)."
  },
  {
   "property": "C44",
   "status": "partial",
   "theorems": [
    "Verif.Path.platform_name",
    "Verif.Path.platform_name_ascii_partial",
    "Verif.Path.valid_name",
    "Verif.Path.non_ascii_rejected"
   ],
   "note": "Complete where char is unsigned. Where char is signed (x86) every non-ASCII name is rejected (non_ascii_rejected), the property holds for ASCII names."
  },
  {
   "property": "C45",
   "status": "proved",
   "theorems": [
    "Verif.Path.name_parts"
   ],
   "note": "GetPlatformFilenameInfo, POSIX branch, all names."
  },
  {
   "property": "C46",
   "status": "partial",
   "theorems": [
    "Verif.File.seek_clamps_partial",
    "Verif.File.seek_wraps"
   ],
   "note": "seek_clamps_partial: the clamped position, for every origin and offset with current position plus offset below 2^64; seek_wraps: beyond that a forward seek goes backwards."
  },
  {
   "property": "C47",
   "status": "partial",
   "theorems": [
    "Verif.File.file_array_partial",
    "Verif.File.perform_ok",
    "Verif.File.write_interrupted_ub",
    "Verif.File.write_interrupted_wrong",
    "Verif.File.write_interrupted_twice",
    "Verif.File.write_failed_desync"
   ],
   "note": "file_array_partial: refinement of a byte array with cursor for every history and every outcome of the system calls, except that writes are not interrupted before finishing (EINTR) and do not fail after a short transfer; the four other theorems show what happens then (out-of-bounds read, wrong bytes written, bytes written twice, position out of step)."
  },
  {
   "property": "C48",
   "status": "partial",
   "theorems": [
    "Verif.File.line_input_partial",
    "Verif.File.all_lines_partial",
    "Verif.File.default_same",
    "Verif.File.default_overreads",
    "Verif.File.short_read_splits",
    "Verif.File.hint_zero"
   ],
   "note": "line_input_partial/all_lines_partial: exactly the lines, for every content and size hint >= 1, with an allocator whose realloc copies, complete reads. Missing: the default allocator reads beyond the block when growing (default_overreads), short reads split lines (short_read_splits), hint 0 never returns (hint_zero)."
  },
  {
   "property": "C49",
   "status": "partial",
   "theorems": [
    "Verif.File.copy_does",
    "Verif.File.copy_exact_partial",
    "Verif.File.copy_wrong"
   ],
   "note": "copy_does: the result for every source (complete reads): prefix equals the source, length is rounded up to a multiple of 8192. copy_exact_partial: exact when the length is a multiple of 8192; copy_wrong: otherwise never."
  },
  {
   "property": "C50",
   "status": "proved",
   "theorems": [
    "Verif.File.load_entire",
    "Verif.File.load_succeeds"
   ],
   "note": ""
  },
  {
   "property": "C51",
   "status": "proved",
   "theorems": [
    "Verif.Csprng.getInteger_in_range",
    "Verif.Csprng.getInteger_stream",
    "Verif.Csprng.getInteger_unbiased",
    "Verif.Csprng.getInteger_onto",
    "Verif.Csprng.getInteger_rejects_at_most_half"
   ],
   "note": "Random words are a list of GetBytes outcomes; unbiasedness is a permutation of all 2^64 words exchanging the words yielding any two values."
  },
  {
   "property": "C52",
   "status": "partial",
   "theorems": [
    "Verif.Csprng.getBytes_complete_partial",
    "Verif.Csprng.getBytes_never_false",
    "Verif.Csprng.getBytes_spec_fails"
   ],
   "note": "True only after a complete read: proved. Refusal on persistent failure: the code loops forever instead (negation proved for every request below 2^63 bytes)."
  },
  {
   "property": "C53",
   "status": "partial",
   "theorems": [
    "Verif.AppInfo.system_dir",
    "Verif.AppInfo.temp_dir_partial",
    "Verif.AppInfo.user_dir_partial",
    "Verif.AppInfo.appDir_slash",
    "Verif.AppInfo.temp_overflow",
    "Verif.AppInfo.user_overflow",
    "Verif.AppInfo.user_empty_home",
    "Verif.AppInfo.user_no_entry"
   ],
   "note": "GetSystemAppStorageDir complete. GetTempStorageDir except a buffer of exactly 5 bytes (overflow proved). GetCurrentUserAppStorageDir except a home directory exactly as long as the buffer (overflow proved), an empty home directory (read before the buffer proved) and no password entry (NULL dereference proved)."
  },
  {
   "property": "C54",
   "status": "partial",
   "theorems": [
    "Verif.SharedLib.call_reaches_function_partial",
    "Verif.SharedLib.callVoid_never_invokes",
    "Verif.SharedLib.callVoid_spec_fails",
    "Verif.SharedLib.callOnce_reaches"
   ],
   "note": "Calls with a return value (and the one-shot variants): full claim for every loader and history. Calls without return value never invoke anything (wrong operator in the condition), proved as negation."
  },
  {
   "property": "C55",
   "status": "partial",
   "theorems": [
    "Verif.Dir.rmdir_inside",
    "Verif.Dir.rmdir_removes_partial",
    "Verif.Dir.erase_is_removal",
    "Verif.Dir.rmdir_leaves",
    "Verif.Dir.rmdir_exact",
    "Verif.Dir.remains_nil_iff",
    "Verif.Dir.rmdir_all_iff"
   ],
   "note": "rmdir_inside: for every behaviour of the system calls, a recursive Rmdir terminates without undefined behaviour and only asks for the removal of the directory itself and of paths below it, reached through directories it had seen not to be symbolic links; a symbolic link as the named directory is not entered. rmdir_exact: on a file system that is a tree with any names a POSIX file system can have except ones with a backslash, paths short enough, listed in any order, the resulting tree and the answer are given exactly. rmdir_all_iff: the whole tree is removed (and the answer is true) exactly if the given name is accepted and every directory that is not empty is reached by names GetPlatformFilename accepts (erase_is_removal says what removal means; rmdir_removes_partial is the ASCII case, with listings that may repeat entries). rmdir_leaves: a subdirectory with a name that is not accepted (a character Windows does not like, or any non-ASCII character where char is signed) is never emptied, so the tree stays and the answer is false. Missing: the whole-tree claim for such names (false), names with a backslash; the tree does not model permissions. Only the POSIX branch."
  },
  {
   "property": "C56",
   "status": "partial",
   "theorems": [
    "Verif.Dir.mkdir_requests_partial",
    "Verif.Dir.mkdir_makes_partial",
    "Verif.Dir.mkdir_requests_accepted_partial",
    "Verif.Dir.mkdir_root_requests_empty"
   ],
   "note": "mkdir_requests_partial: for every behaviour of the system calls and every name, either nothing is requested and the answer is false, or the requests are those for every ancestor of the absolute name from the top down and then for the directory itself, with the given mode, and the answer is that of the last one. mkdir_requests_accepted_partial: a name of accepted characters that C43 covers is not refused and the absolute name is its resolved form. mkdir_makes_partial: on a tree the directory exists afterwards. Missing, and false in the code: for the root directory the request is for the empty path (mkdir_root_requests_empty). Only the POSIX branch; which absolute name is used otherwise is C43."
  },
  {
   "property": "C57",
   "status": "proved",
   "theorems": [
    "Verif.HashFn.hashKey_only",
    "Verif.HashFn.sip_is_siphash",
    "Verif.HashFn.djb_is_djb",
    "Verif.HashFn.cacheBytes_is_djb",
    "Verif.HashFn.cacheStr_is_djb"
   ],
   "note": "For every key, every memory around it and both byte orders: no read outside the key (for the string variant: outside the string and its terminator), and the result is a function of the key alone. The alignment of the word reads is not modelled."
  },
  {
   "property": "C58",
   "status": "partial",
   "theorems": [
    "Verif.Utf8.last_pos_utf8_partial",
    "Verif.Utf8.last_pos_wide_partial",
    "Verif.Utf8.last_pos_wrong"
   ],
   "note": "Fails: three-byte sequences do not move LastPos, four-byte ones leave it at their start; wide sources report the last unit, not the one after it."
  },
  {
   "property": "C59",
   "status": "partial",
   "theorems": [
    "Verif.Utf8.alloc_text",
    "Verif.Utf8.alloc_safe",
    "Verif.Utf8.alloc_terminated_partial",
    "Verif.Utf8.alloc_unterminated"
   ],
   "note": "Fails for 16-bit units: a high surrogate before the terminator swallows it. The first call reads an uninitialised size; the model takes an arbitrary value and shows it is irrelevant."
  },
  {
   "property": "C60",
   "status": "partial",
   "theorems": [
    "Verif.Sem.no_lost_wakeup",
    "Verif.Event.manual_no_lost_wakeup",
    "Verif.Event.auto_no_lost_wakeup_partial",
    "Verif.Event.auto_lost_wakeup"
   ],
   "note": "Holds for the semaphore and for manual events; for automatic events if no wait times out or fails. auto_lost_wakeup: after a time-out racing with Fire, an automatic event stays signalled while threads block for ever."
  },
  {
   "property": "C61",
   "status": "partial",
   "theorems": [
    "Verif.Sem.no_ub",
    "Verif.Sem.leaked_step",
    "Verif.Sem.leaked_exec",
    "Verif.Sem.clock_failure_locks"
   ],
   "note": "The claim is false: clock_failure_locks shows that a failing clock call in WaitForUnixSemaphore returns with the internal mutex locked, and leaked_exec that no call ever succeeds after that. no_ub (no unlock of a mutex the thread does not own) is what holds."
  },
  {
   "property": "C62",
   "status": "partial",
   "theorems": [
    "Verif.Tls.dup_keeps_partial",
    "Verif.Tls.dup_loses"
   ],
   "note": "A block grown by ::realloc keeps its old size mark, so dup_malloc loses its tail; proved for blocks of at most 2^m bytes."
  },
  {
   "property": "C63",
   "status": "proved",
   "theorems": [
    "Verif.Tls.thread_end",
    "Verif.Tls.no_memory"
   ],
   "note": "Every history obeying the rules."
  },
  {
   "property": "C64",
   "status": "partial",
   "theorems": [
    "Verif.File.open_failed_partial",
    "Verif.File.open_failed_open",
    "Verif.File.closed_refuses"
   ],
   "note": "open_failed_partial: closed after a failure of the name check or of open(2); closed_refuses: a closed object refuses reads, writes and seeks; open_failed_open: a failing lock or an unknown sharing mode leaves the object open."
  },
  {
   "property": "C65",
   "status": "partial",
   "theorems": [
    "Verif.AppInfo.exe_name_safe",
    "Verif.AppInfo.exe_name_partial",
    "Verif.AppInfo.exe_path",
    "Verif.AppInfo.exe_name_cut",
    "Verif.AppInfo.exe_path_backslash"
   ],
   "note": "Safety for all inputs. The right name if the link is shorter than the buffer; a longer link is cut off and may name another file (exe_name_cut). The directory is cut at a backslash too, which may be part of a file name (exe_path_backslash)."
  },
  {
   "property": "C66",
   "status": "proved",
   "theorems": [
    "Verif.HashFn.sip_is_siphash",
    "Verif.HashFn.hashKey_only"
   ],
   "note": "The specification is written after the paper and checked against the test vector of the paper. With the other byte order the function is a variant of SipHash (le = false in the theorem)."
  },
  {
   "property": "C67",
   "status": "partial",
   "theorems": [
    "Verif.Utf8Var.wide_text_safe_partial",
    "Verif.Utf8Var.set_wide_fits_partial",
    "Verif.Utf8Var.get_wide",
    "Verif.Utf8Var.append_ascii_partial",
    "Verif.Utf8Var.set_cuts_character",
    "Verif.Utf8Var.set_skips_character",
    "Verif.Utf8Var.append_drops_character",
    "Verif.Utf8Var.wide_text_exact",
    "Verif.Utf8Var.append_complete_iff"
   ],
   "note": "The exact text after every history mixed with the base class's calls, for any units at all, is proved (wide_text_exact): SetUTF8 stores, from left to right, each valid code point that still fits in the whole variable, AppendUTF8 the same within as many bytes as there are units, and a text that fills the variable or ends in NUL loses its last byte. The result is the property's text when the UTF-8 form leaves room for the terminator (SetUTF8), and for AppendUTF8 exactly when the text is ASCII (append_complete_iff). ConvertFromUTF8 gives the text back. The rest of the property is false: text that exactly fills the variable loses a byte of its last character (set_cuts_character), characters that do not fit are skipped (set_skips_character), and AppendUTF8 limits the bytes by the number of units (append_drops_character)."
  },
  {
   "property": "C68",
   "status": "partial",
   "theorems": [
    "Verif.TlsVar.tls_vars_partial",
    "Verif.TlsVar.shown_unique",
    "Verif.TlsVar.no_leak_partial",
    "Verif.TlsVar.copy_undefined",
    "Verif.TlsVar.set_size_undefined",
    "Verif.TlsVar.set_failure_undefined",
    "Verif.TlsVar.no_thread_undefined"
   ],
   "note": "Exact effect of every step, independence and no leak for every legal history; missing: failing allocations, texts beyond the limits of the allocator, SetSize(0) on a variable without text and the copy constructor, which are undefined (witnesses). Threads own separate variables, one thread is modelled."
  },
  {
   "property": "C69",
   "status": "partial",
   "theorems": [
    "Verif.Mutex.Full.full_no_lost_wakeup_partial",
    "Verif.RwLock.Full.full_no_lost_wakeup_partial",
    "Verif.RwLock.fire_failure_blocks"
   ],
   "note": "The code of the two classes on the real semaphores and event. Missing: 2^32 - 1 nested locks of one thread, 2^32 - 1 simultaneous readers (32-bit counters). fire_failure_blocks shows that the assumption about system calls is needed: after a failed fire nobody has the lock and a writer waits for ever."
  },
  {
   "property": "C70",
   "status": "proved",
   "theorems": [
    "Verif.Timing.deadline_exact"
   ],
   "note": "64-bit time_t and long, the 32-bit product as in the code."
  },
  {
   "property": "C71",
   "status": "partial",
   "theorems": [
    "Verif.Timing.micros_exact",
    "Verif.Timing.left_infinite",
    "Verif.Timing.left_zero",
    "Verif.Timing.left_finite",
    "Verif.Timing.limit_partial",
    "Verif.Timing.left_value",
    "Verif.Timing.limit_exceeded",
    "Verif.Timing.limit_exceeded_always",
    "Verif.Timing.clock_back"
   ],
   "note": "Wait = 0 and INFINITE as claimed. The limit itself is false in the code: it subtracts elapsed seconds from milliseconds, so the second wait gets nearly the whole limit again (limit_exceeded, limit_exceeded_always); limit_partial: at most twice the limit. clock_back: a clock set back makes the call fail."
  },
  {
   "property": "C72",
   "status": "partial",
   "theorems": [
    "Verif.FileOps.refused_name",
    "Verif.FileOps.acts",
    "Verif.FileOps.chown_acts",
    "Verif.FileOps.chgrp_partial",
    "Verif.FileOps.chgrp_wrong"
   ],
   "note": "All operations but Chgrp are covered as stated (SetFileTimes: see times_set of C73). Chgrp looks the group name up in the list of accounts: chgrp_partial holds when the account of that name has the group of that name, chgrp_wrong is a witness of the wrong group."
  },
  {
   "property": "C73",
   "status": "partial",
   "theorems": [
    "Verif.FileOps.times_set",
    "Verif.FileOps.times_kept_partial",
    "Verif.FileOps.times_truncated"
   ],
   "note": "Given times are set exactly. A time that is not given is truncated to whole seconds (times_truncated); times_kept_partial holds for whole seconds."
  },
  {
   "property": "C74",
   "status": "partial",
   "theorems": [
    "Verif.FileOps.symlink_acts",
    "Verif.FileOps.realpath_ok",
    "Verif.FileOps.readlink_partial",
    "Verif.FileOps.readlink_cleared",
    "Verif.FileOps.readlink_unterminated"
   ],
   "note": "Realpath is covered as stated. Readlink does not write the final NUL: readlink_partial says what is written, readlink_cleared has the terminator for cleared buffers, readlink_unterminated shows that other buffers stay unterminated."
  },
  {
   "property": "C75",
   "status": "partial",
   "theorems": [
    "Verif.FileOps.copy_self",
    "Verif.FileOps.copy_frame",
    "Verif.FileOps.copy_true_partial",
    "Verif.FileOps.copy_pads",
    "Verif.FileOps.move_false",
    "Verif.FileOps.move_renamed",
    "Verif.FileOps.move_copied_partial",
    "Verif.FileOps.move_pads",
    "Verif.FileOps.move_loses",
    "Verif.FileOps.copy_answer",
    "Verif.FileOps.move_answer"
   ],
   "note": "Renaming, refusals, and everything about other files are covered as stated. The contents after a move by copying only for lengths that are multiples of 8192 and writes that succeed; move_pads and move_loses prove that otherwise the contents change or are lost together with the original."
  },
  {
   "property": "C76",
   "status": "partial",
   "theorems": [
    "Verif.DirList.listing",
    "Verif.DirList.nothing_left",
    "Verif.DirList.list_all_partial",
    "Verif.DirList.list_cut"
   ],
   "note": "A name that does not fit the buffer is skipped and Read returns false as at the end (list_cut)."
  },
  {
   "property": "C77",
   "status": "proved",
   "theorems": [
    "Verif.SyncLife.life",
    "Verif.SyncLife.all_released"
   ],
   "note": "Sizes of the platform as in Spec.Platform (met by the usual 64-bit platform, lp64_ok)."
  },
  {
   "property": "C78",
   "status": "partial",
   "theorems": [
    "Verif.SyncLife.mem_create_partial",
    "Verif.SyncLife.first_stale",
    "Verif.SyncLife.size_stale",
    "Verif.SyncLife.size_wraps"
   ],
   "note": "First() is never reset, GetSize() keeps the old size after a failure, sizes near 2^64 wrap."
  },
  {
   "property": "C79",
   "status": "partial",
   "theorems": [
    "Verif.SyncLife.Mtx.mutex_life_partial",
    "Verif.SyncLife.Mtx.mutex_free_partial",
    "Verif.SyncLife.Mtx.create_leaks",
    "Verif.SyncLife.Mtx.lock_uncreated",
    "Verif.SyncLife.Mtx.lock_after_failure",
    "Verif.SyncLife.Mtx.create_keeps_down"
   ],
   "note": "The code violates it in four ways, each with a witness."
  },
  {
   "property": "C80",
   "status": "partial",
   "theorems": [
    "Verif.SyncLife.layout_partial",
    "Verif.SyncLife.misaligned"
   ],
   "note": "Inside and disjoint for all platforms; not aligned on the usual one."
  },
  {
   "property": "C81",
   "status": "partial",
   "theorems": [
    "Verif.TlsVar.replace_data_partial",
    "Verif.TlsVar.replaced_all_exact",
    "Verif.TlsVar.tls_vars_partial",
    "Verif.TlsVar.no_leak_partial",
    "Verif.TlsVar.replace_null",
    "Verif.TlsVar.replace_overlaps"
   ],
   "note": "In place, the text is copied onto itself with memcpy (undefined in C++; the theorem assumes it copes with overlapping), and a NULL text is written to. Failing allocations and the limits of the allocator as in C68."
  },
  {
   "property": "C82",
   "status": "partial",
   "theorems": [
    "Verif.WinAppInfo.folder_dir_partial",
    "Verif.WinAppInfo.folder_dir_safe_partial",
    "Verif.WinAppInfo.folder_dir_unknown",
    "Verif.WinAppInfo.temp_dir_partial",
    "Verif.WinAppInfo.folder_dir_drops_character",
    "Verif.WinAppInfo.folder_dir_empty_reads_before",
    "Verif.WinAppInfo.temp_dir_overruns",
    "Verif.WinAppInfo.temp_dir_cuts",
    "Verif.WinAppInfo.temp_dir_too_long"
   ],
   "note": "Holds for the system and user folders when the path fits or has only characters below U+0800 (and for the temporary folder for ASCII paths not longer than the buffer); the other cases have counterexamples. Success needs one byte more than the string with its terminator."
  },
  {
   "property": "C83",
   "status": "partial",
   "theorems": [
    "Verif.WinAppInfo.exe_name_partial",
    "Verif.WinAppInfo.exe_name_too_long",
    "Verif.WinAppInfo.exe_name_of_failure",
    "Verif.WinAppInfo.exe_name_drops_character"
   ],
   "note": "Holds when the path fits or has only characters below U+0800; counterexamples for a path that does not fit with a longer character and for a failing system call. Success needs one byte more than the string with its terminator."
  },
  {
   "property": "C84",
   "status": "partial",
   "theorems": [
    "Verif.WinPath.win_name_partial",
    "Verif.WinPath.win_name_ascii_partial",
    "Verif.WinPath.win_name_overruns",
    "Verif.WinPath.win_name_volume",
    "Verif.WinPath.win_name_reserved",
    "Verif.WinPath.win_name_non_ascii",
    "Verif.WinPath.win_name_bare_volume"
   ],
   "note": "Holds except for buffers of exactly four or six bytes more than the length of the name, volumes, a device name directly after a prefix or drive letter, and (where char is signed) names beyond ASCII; counterexamples for each of these."
  },
  {
   "property": "C85",
   "status": "proved",
   "theorems": [
    "Verif.WinPath.win_name_parts"
   ],
   "note": "For all names."
  },
  {
   "property": "C86",
   "status": "partial",
   "theorems": [
    "Verif.WinFile.win_file_array_partial",
    "Verif.WinFile.win_read_large",
    "Verif.WinFile.win_write_large",
    "Verif.WinFile.win_size_unknown",
    "Verif.WinFile.win_seek_wraps"
   ],
   "note": "Holds for all histories with transfers below 4 GiB, forward seeks below 2^63 and a system that can tell the size of the file; counterexamples for each of these."
  },
  {
   "property": "C87",
   "status": "partial",
   "theorems": [
    "Verif.WinFile.win_open_partial",
    "Verif.WinFile.win_open_failed",
    "Verif.WinFile.win_open_truncate",
    "Verif.WinFile.win_open_append"
   ],
   "note": "Failure in all cases; success when the system does not refuse to truncate, to tell the size or to move to the end, which Open does not notice (counterexamples)."
  },
  {
   "property": "C88",
   "status": "partial",
   "theorems": [
    "Verif.WinAbs.win_absolute_partial",
    "Verif.WinAbs.win_absolute_accepts_partial",
    "Verif.WinAbs.win_absolute_untrailed_partial",
    "Verif.WinAbs.win_absolute_parent",
    "Verif.WinAbs.win_absolute_host",
    "Verif.WinAbs.win_absolute_cut",
    "Verif.WinAbs.win_absolute_root",
    "Verif.WinAbs.win_absolute_drive",
    "Verif.WinAbs.win_absolute_slack"
   ],
   "note": "For all names that GetPlatformFilename handles: defined, and the result is the resolved path unless relative names meet . or .. at the seam or the host is \".\"; counterexamples for these, for tight buffers, the root without trailing backslash, and for uninitialised memory full of backslashes. Success is characterised for ASCII names of at most 8188 characters together."
  },
  {
   "property": "C89",
   "status": "partial",
   "theorems": [
    "Verif.WinOps.win_time_seconds_partial",
    "Verif.WinOps.win_time_early",
    "Verif.WinOps.win_micro_partial",
    "Verif.WinOps.win_micro_wraps",
    "Verif.WinOps.win_clock",
    "Verif.WinOps.posix_clock",
    "Verif.WinOps.win_set_times_partial",
    "Verif.WinOps.win_set_times_none",
    "Verif.WinOps.win_times_stat_partial",
    "Verif.WinOps.win_set_times_wraps"
   ],
   "note": "Exact for times from 1970 on that fit; earlier times of files come out as dates after the year 57000, and huge times wrap around."
  },
  {
   "property": "C90",
   "status": "partial",
   "theorems": [
    "Verif.WinOps.win_chmod",
    "Verif.WinOps.win_stat",
    "Verif.WinOps.win_chmod_stat_partial",
    "Verif.WinOps.win_chmod_writable"
   ],
   "note": "Chmod and Stat are described exactly; modes such as 0555 and 0 leave the file writable."
  },
  {
   "property": "C91",
   "status": "partial",
   "theorems": [
    "Verif.WinOps.win_copy_done",
    "Verif.WinOps.win_copy_failed_partial",
    "Verif.WinOps.win_copy_works",
    "Verif.WinOps.win_copy_self",
    "Verif.WinOps.win_copy_loses_attributes"
   ],
   "note": "A failed Copy gives the destination its attributes back only if they could be read; everything else as stated."
  },
  {
   "property": "C92",
   "status": "partial",
   "theorems": [
    "Verif.WinOps.win_move_done_partial",
    "Verif.WinOps.win_move_failed_partial",
    "Verif.WinOps.win_move_readonly"
   ],
   "note": "Moving a read-only file onto an existing one reports success and leaves the source."
  },
  {
   "property": "C93",
   "status": "partial",
   "theorems": [
    "Verif.WinOps.win_delete_done",
    "Verif.WinOps.win_delete_works",
    "Verif.WinOps.win_delete_failed_partial",
    "Verif.WinOps.win_delete_resets",
    "Verif.WinOps.win_delete_other_name"
   ],
   "note": "A failed Delete has reset the attributes; deleting one of several names resets the attributes seen under the others."
  },
  {
   "property": "C94",
   "status": "partial",
   "theorems": [
    "Verif.WinOps.win_refused",
    "Verif.WinOps.win_exists"
   ],
   "note": "For all names that GetPlatformFilename handles (C84); that the other operations use the UTF-16 form is part of C89-C93."
  },
  {
   "property": "C95",
   "status": "partial",
   "theorems": [
    "Verif.WinDir.win_rmdir_inside",
    "Verif.WinDir.win_rmdir_one",
    "Verif.WinDir.win_rmdir_removes_partial",
    "Verif.WinDir.win_rmdir_readonly"
   ],
   "note": "What may be removed, for every system; complete removal on a tree without read-only entries, with paths of at most 8190 units, for names as in C88. Read-only files are not removed."
  },
  {
   "property": "C96",
   "status": "partial",
   "theorems": [
    "Verif.WinDir.win_mkdir_requests",
    "Verif.WinDir.win_mkdir_accepted_partial",
    "Verif.WinDir.win_mkdir_makes_partial"
   ],
   "note": "The requests for every system, the result on a tree; for names that the path functions handle as they should (C88)."
  },
  {
   "property": "C97",
   "status": "partial",
   "theorems": [
    "Verif.WinDir.win_getcwd_partial",
    "Verif.WinDir.win_getcwd_long",
    "Verif.WinDir.win_getcwd_unterminated",
    "Verif.WinDir.win_getcwd_failed"
   ],
   "note": "For directories that are UTF-16 text of at most 8191 bytes in UTF-8, with the exceptions of C84; longer ones and an unpaired surrogate at the end read memory that was not written."
  },
  {
   "property": "C98",
   "status": "partial",
   "theorems": [
    "Verif.WinList.win_listing",
    "Verif.WinList.win_nothing_left",
    "Verif.WinList.win_list_all_partial",
    "Verif.WinList.win_open_pattern",
    "Verif.WinList.win_open_accepted_partial",
    "Verif.WinList.win_read_exact",
    "Verif.WinList.win_read_mangled",
    "Verif.WinList.win_read_unterminated",
    "Verif.WinList.win_close_last"
   ],
   "note": "Handles and memory for all histories; complete listings for names that are UTF-16 text and leave a byte of the buffer unused; the rest disagrees."
  },
  {
   "property": "C99",
   "status": "proved",
   "theorems": [
    "Verif.WinRwLock.win_one_writer",
    "Verif.WinRwLock.win_no_reader",
    "Verif.WinRwLock.win_linearizable",
    "Verif.WinRwLock.win_readers_bound",
    "Verif.WinRwLock.win_write_free",
    "Verif.WinRwLock.win_read_free",
    "Verif.WinRwLock.win_unpaired_breaks"
   ],
   "note": "For paired calls, any failures. Without pairing exclusion fails (win_unpaired_breaks)."
  },
  {
   "property": "C100",
   "status": "proved",
   "theorems": [
    "Verif.WinRwLock.win_no_lost_wakeup",
    "Verif.WinRwLock.win_limit_deadlock",
    "Verif.WinRwLock.win_set_failure_blocks",
    "Verif.WinRwLock.win_unlock_failure"
   ],
   "note": "Both restrictions of the text are needed: with 2^31 - 1 read locks one more ReadLock blocks every ReadUnlock for ever (win_limit_deadlock), and a failing SetEvent blocks writers for ever (win_set_failure_blocks)."
  },
  {
   "property": "C101",
   "status": "proved",
   "theorems": [
    "Verif.WinMutex.win_mutex_no_ub",
    "Verif.WinMutex.win_mutex_linearizable",
    "Verif.WinMutex.win_mutex_exclusive",
    "Verif.WinMutex.win_mutex_relock",
    "Verif.WinMutex.win_mutex_other_object",
    "Verif.WinMutex.win_mutex_excluded",
    "Verif.WinMutex.win_mutex_unlock_refused",
    "Verif.WinMutex.win_mutex_unlock_frees",
    "Verif.WinMutex.win_mutex_unlock_nested",
    "Verif.WinMutex.win_mutex_lock_free",
    "Verif.WinMutex.win_exclusion_fails"
   ],
   "note": "Both conditions of the text are needed: win_exclusion_fails (2^32 + 1 nested locks), win_id_reused. That the last Unlock frees the mutex (win_mutex_unlock_frees) is stated for executions in which no ReleaseMutex failed."
  },
  {
   "property": "C102",
   "status": "partial",
   "theorems": [
    "Verif.WinMutex.win_mutex_abandoned_partial",
    "Verif.WinMutex.win_mutex_abandoned_blocks",
    "Verif.WinMutex.win_id_reused"
   ],
   "note": "False as stated: Lock reports WAIT_ABANDONED as a failure although the thread now owns the kernel mutex, so other threads can wait for ever; a thread that gets the id of the ended one is taken for the holder. Proved: the second Lock of the same thread succeeds."
  },
  {
   "property": "C103",
   "status": "proved",
   "theorems": [
    "Verif.WinMutex.win_mutex_no_lost_wakeup",
    "Verif.WinMutex.win_mutex_release_failure"
   ],
   "note": "The condition on ReleaseMutex is needed (win_mutex_release_failure)."
  },
  {
   "property": "C104",
   "status": "proved",
   "theorems": [
    "Verif.WinSync.win_life",
    "Verif.WinSync.win_life_end",
    "Verif.WinSync.win_life_blocks",
    "Verif.WinSync.win_created",
    "Verif.WinSync.win_sem_idle",
    "Verif.WinSync.win_event_idle"
   ],
   "note": "win_life also covers handles that mutexes still store and the views of shared memory; handles lost by mutexes are C105."
  },
  {
   "property": "C105",
   "status": "partial",
   "theorems": [
    "Verif.WinSync.win_mutex_life_partial",
    "Verif.WinSync.win_mutex_life_end_partial",
    "Verif.WinSync.win_mutex_create_leaks"
   ],
   "note": "False as stated: Mutex::Create on a created mutex overwrites the handle (win_mutex_create_leaks). Proved for histories in which Create is only called on mutexes that are not created."
  },
  {
   "property": "C106",
   "status": "partial",
   "theorems": [
    "Verif.WinSync.win_mem_size_partial",
    "Verif.WinSync.win_mem_shared_partial",
    "Verif.WinSync.win_mem_first_partial",
    "Verif.WinSync.win_life_end",
    "Verif.WinSync.win_mem_size_false",
    "Verif.WinSync.win_mem_shared_false",
    "Verif.WinSync.win_mem_nobody_first",
    "Verif.WinSync.win_mem_stale_size",
    "Verif.WinSync.win_mem_block_lost"
   ],
   "note": "False as stated in four ways, each with a witness: sizes are cut to 32 bits; nobody is First when the first one fails to map; GetSize keeps the old size after a failed Create; a block is lost when both system calls fail. Proved: sizes below 2^32, at most one First, all views and handles released."
  },
  {
   "property": "C107",
   "status": "partial",
   "theorems": [
    "Verif.WinSync.win_shared_partial",
    "Verif.WinSync.win_sem_create",
    "Verif.WinSync.win_event_create",
    "Verif.WinSync.win_sem_create_ok",
    "Verif.WinSync.win_sem_create_zero",
    "Verif.WinSync.win_event_create_ok",
    "Verif.WinSync.win_shared_other_class",
    "Verif.WinSync.win_name_clash"
   ],
   "note": "False across classes: a semaphore can share with a part of a reader-writer lock, and an event cannot be created under the name of a semaphore. Proved for objects of one class, with shared memory sizes modulo 2^32."
  },
  {
   "property": "C108",
   "status": "proved",
   "theorems": [
    "Verif.WinSync.win_sem_count",
    "Verif.WinSync.win_sem_lock",
    "Verif.WinSync.win_sem_unlock",
    "Verif.WinSync.win_event_state",
    "Verif.WinSync.win_event_wait",
    "Verif.WinSync.win_event_set",
    "Verif.WinSync.win_event_auto",
    "Verif.WinSync.win_event_manual"
   ],
   "note": "The calls are those of Wait = 0, or a wait that ends at once; kernel semaphores and events are modelled as the Windows documentation has them."
  },
  {
   "property": "C109",
   "status": "partial",
   "theorems": [
    "Verif.WinSync.win_rw_idle_partial",
    "Verif.WinSync.win_rw_ready",
    "Verif.WinSync.win_rw_idle_false",
    "Verif.WinSync.win_rw_idle_unlock_false",
    "Verif.WinSync.win_rw_fresh",
    "Verif.WinSync.win_rw_failed_partial"
   ],
   "note": "False for ReadUnlock, WriteLock and WriteUnlock, which look at fewer handles than Create needs. Proved for ReadLock and for the second half."
  },
  {
   "property": "C110",
   "status": "partial",
   "theorems": [
    "Verif.WinLink.win_readlink_first_partial",
    "Verif.WinLink.win_readlink_none",
    "Verif.WinLink.win_readlink_safe_partial",
    "Verif.WinLink.win_readlink_relative",
    "Verif.WinLink.win_readlink_absolute",
    "Verif.WinLink.win_readlink_overread",
    "Verif.WinLink.win_readlink_tight"
   ],
   "note": "False as stated: offset and length of the name are bytes but are used as numbers of characters. For every symbolic link with a relative target the result is the empty string, with an absolute target its last four characters (for all such links), and long targets are read past the end of the buffer. Proved for the layout of mount points with a roomy buffer, for everything that is not a link, and that nothing is written past the given size."
  },
  {
   "property": "C111",
   "status": "partial",
   "theorems": [
    "Verif.WinLink.win_symlink_partial",
    "Verif.WinLink.win_symlink_none",
    "Verif.WinLink.win_symlink_relative"
   ],
   "note": "False for relative targets, which are looked for below the link itself (win_symlink_relative). Proved for targets with a volume or beginning with a slash, ASCII names."
  },
  {
   "property": "C112",
   "status": "partial",
   "theorems": [
    "Verif.WinReal.win_realpath_partial",
    "Verif.WinReal.win_realpath_links_partial",
    "Verif.WinReal.win_realpath_relative_link",
    "Verif.WinReal.win_realpath_overrun",
    "Verif.WinReal.overrun_case",
    "Verif.WinReal.win_realpath_signed",
    "Verif.WinReal.win_realpath_too_long",
    "Verif.WinReal.win_realpath_link_too_long"
   ],
   "note": "Proved for ASCII names of at most 8180 bytes without links, and with mount points (up to twenty, targets of at most 1365 characters). False as stated: no path over a symbolic link with a relative target has a real name (for all such paths), an entry whose name fills the buffer makes the terminator go behind it, and where char is signed a name with other characters than ASCII is given but false returned."
  },
  {
   "property": "C113",
   "status": "partial",
   "theorems": [
    "Verif.Tls.bucket_nodes_partial",
    "Verif.Tls.bucket_memory_partial",
    "Verif.Tls.bucket_size_short",
    "Verif.Tls.bucket_overflow",
    "Verif.Tls.bucket_refuses"
   ],
   "note": "Nodes as stated for buckets below 31. False as stated: Size leaves out the byte in front of every block (from bucket 4 on; the exact difference is proved for all histories), and asking for bucket 31 or later is undefined (1 << 31)."
  },
  {
   "property": "C114",
   "status": "partial",
   "theorems": [
    "Verif.WinTiming.win_nowait",
    "Verif.WinTiming.win_infinite",
    "Verif.WinTiming.win_limit_partial",
    "Verif.WinTiming.win_patient_partial",
    "Verif.WinTiming.win_read_limit_exceeded",
    "Verif.WinTiming.win_write_limit_exceeded",
    "Verif.WinTiming.win_early",
    "Verif.WinTiming.win_clock_back"
   ],
   "note": "Wait = 0 and INFINITE as stated. With a limit: at most three times (ReadLock) or twice (WriteLock) the limit, and both are reached (seconds are subtracted from milliseconds); false at most one millisecond early with a true clock, at once if the clock is set back by a second."
  },
  {
   "property": "C115",
   "status": "proved",
   "theorems": [
    "Verif.WinTiming.win_micros"
   ],
   "note": "Every FILETIME from 1970 on, in both copies of the function."
  },
  {
   "property": "C116",
   "status": "partial",
   "theorems": [
    "Verif.WinCsprng.win_getBytes_partial",
    "Verif.WinCsprng.win_getBytes_short",
    "Verif.WinCsprng.win_getBytes_spec_fails",
    "Verif.WinCsprng.win_getInt_partial",
    "Verif.WinCsprng.win_getInt_fails"
   ],
   "note": "Requests below 4 GiB and GetInteger as stated. From 4 GiB on the size is cut to 32 bits: only Size mod 2^32 bytes are generated and true is returned (win_getBytes_short, for every such size)."
  },
  {
   "property": "C117",
   "status": "proved",
   "theorems": [
    "Verif.SharedLife.lib_life",
    "Verif.SharedLife.lib_life_end",
    "Verif.SharedLife.lib_stays",
    "Verif.SharedLife.lib_outlived"
   ],
   "note": "One model for both platforms, whose code differs only in the names of the system calls. lib_outlived shows that the condition on the use is needed."
  },
  {
   "property": "C118",
   "status": "partial",
   "theorems": [
    "Verif.Utf8.search_never_returns",
    "Verif.Utf8.find_is_partial",
    "Verif.Utf8.find_ascii_partial",
    "Verif.Utf8.find_never_wide",
    "Verif.Utf8.find_position",
    "Verif.Utf8.next_ascii_partial",
    "Verif.Utf8.next_ascii_spec_partial",
    "Verif.Utf8.next_ascii_combining"
   ],
   "note": "As compiled neither function returns from the start of a string (search_never_returns). With the C library's strlen: FindCodePoint answers exactly whether some sequence starts with that byte (find_is_partial), which is right for ASCII (find_ascii_partial), never finds a code point above 255 (find_never_wide), and its position is never the one asked for (find_position); NextASCIICodePoint delivers exactly the ASCII characters, right without combining marks (next_ascii_spec_partial), wrong for every text where one follows an ASCII character (next_ascii_combining)."
  },
  {
   "property": "C119",
   "status": "partial",
   "theorems": [
    "Verif.FastFind.edit_is_partial",
    "Verif.FastFind.edit_all_partial",
    "Verif.FastFind.leaving_repeats",
    "Verif.FastFind.edited_unique",
    "Verif.FastFind.blocks_partial",
    "Verif.FastFind.new_data_leaks"
   ],
   "note": "Right if every match is replaced (edit_all_partial). A match left alone makes FindNext write the text in front of it a second time (leaving_repeats; edit_is_partial describes the result for every choice). Blocks: as stated except that SetData while the object holds a block loses that block (new_data_leaks). The plain classes can read beyond a block when growing, as in C29."
  },
  {
   "property": "C120",
   "status": "partial",
   "theorems": [
    "Verif.PackedHash.packed_life_partial",
    "Verif.PackedHash.growth_leaks"
   ],
   "note": "Values and strings are constructed, destroyed, allocated and freed exactly once, and the array in use is freed; within the limits of C22. Violated by the arrays: InternalResizeHash never frees the old one, so one block is left for every change of GetHashSize() (packed_life_partial counts them, growth_leaks shows that they exist as soon as the table outgrew its first size)."
  },
  {
   "property": "C121",
   "status": "partial",
   "theorems": [
    "Verif.Tls.threads_partial",
    "Verif.Tls.threads_end",
    "Verif.Tls.freed_elsewhere"
   ],
   "note": "Calls of different threads interleave but do not overlap (each touches only its own cache and the system allocator, which is taken to be thread-safe). Missing: the cases excluded at C40 (failing large allocations, sizes beyond 2^31 with more than 31 buckets). freed_elsewhere: the rule is needed, a block freed by another thread with more buckets is written beyond its end. The StaticVector object leaked by ThreadInit when SetMainPtr fails is not part of the model heap."
  },
  {
   "property": "C122",
   "status": "proved",
   "theorems": [
    "Verif.Csprng.csprng_reads",
    "Verif.Csprng.csprng_descriptors",
    "Verif.Csprng.csprng_closed",
    "Verif.Csprng.csprng_can"
   ],
   "note": "csprng_can: the model stops for no legal action. close of an open descriptor is taken to succeed. What a request that reads does is C52."
  },
  {
   "property": "C123",
   "status": "proved",
   "theorems": [
    "Verif.Guard.guards_balanced",
    "Verif.Guard.leave_unlocks",
    "Verif.Guard.goes_on",
    "Verif.Guard.guarded_mutex",
    "Verif.Guard.guarded_defined",
    "Verif.Guard.guarded_exclusion"
   ],
   "note": "guards_balanced and leave_unlocks hold for all four guards; guarded_exclusion runs the programs on the reader-writer lock with its real semaphores and event, where unlock calls are not checked. When C++ runs destructors is part of the model (module comment of Guard/Model.lean)."
  },
  {
   "property": "C124",
   "status": "partial",
   "theorems": [
    "Verif.Sem.gives_up_partial",
    "Verif.Sem.try_fails_with_units",
    "Verif.Event.gives_up_partial",
    "Verif.Event.try_fails_signalled"
   ],
   "note": "POSIX. The last clause for the limit 0 is false: pthread_mutex_trylock also fails while another thread is inside the object (try_fails_with_units, try_fails_signalled); gives_up_partial has that as a further case and is otherwise complete."
  },
  {
   "property": "C125",
   "status": "proved",
   "theorems": [
    "Verif.PackedHash.cursor_refines",
    "Verif.PackedHash.visits_all",
    "Verif.PackedHash.prune_loop",
    "Verif.PackedHash.iteration_skips"
   ],
   "note": "Refinement of a cursor specification for every sequence of actions; the two consequences for loops; iteration_skips shows that the restriction is needed."
  },
  {
   "property": "C126",
   "status": "partial",
   "theorems": [
    "Verif.PackedHash.auto_resize_rules_partial",
    "Verif.PackedHash.auto_never_shrinks",
    "Verif.PackedHash.shrink_rule_broken",
    "Verif.PackedHash.table_size_bound",
    "Verif.PackedHash.should_optimize",
    "Verif.PackedHash.should_optimize_not_75"
   ],
   "note": "Proved: the exact behaviour of AutoResizeHash and ShouldOptimize after every history and the bound on the table. False in the code: the shrink rule is unreachable (its threshold is 80 %, tested after the 90 % test), so only ResizeHash ever shrinks; ShouldOptimize uses 87.5 % where its name says 75 %."
  },
  {
   "property": "C127",
   "status": "proved",
   "theorems": [
    "Verif.OrderedHash.load_factor",
    "Verif.OrderedHash.table_not_larger",
    "Verif.OrderedHash.shrunk_table_lags"
   ],
   "note": "Invariant: the cached position is that of the first prime above the table size, and the number of nodes is below that prime; shrunk_table_lags shows that the restriction is needed."
  },
  {
   "property": "C128",
   "status": "proved",
   "theorems": [
    "Verif.OrderedHash.KeyMem.key_memory",
    "Verif.OrderedHash.KeyMem.protocol_needed",
    "Verif.OrderedHash.KeyMem.documented_use_leaks",
    "Verif.OrderedHash.KeyMem.destructor_deletes"
   ],
   "note": "Node memory with freed blocks kept as such, so double frees, use after free and leaks are visible; protocol_needed shows that none of the excluded calls can be admitted."
  },
  {
   "property": "C129",
   "status": "proved",
   "theorems": [
    "Verif.OrderedHash.nodes_move_between_hashes",
    "Verif.OrderedHash.node_moves",
    "Verif.OrderedHash.moved_node_lost",
    "Verif.OrderedHash.refused_node_lost"
   ],
   "note": "One memory for the nodes of all hashes; each call runs the functions of the single-hash model on the members of its own hash. The frame part (MultiLemmas) shows that a call neither reads nor changes nodes outside its hash."
  },
  {
   "property": "C130",
   "status": "proved",
   "theorems": [
    "Verif.Tls.Scope.auto_free",
    "Verif.Tls.Scope.guard_after_thread_end_leaks",
    "Verif.Tls.Scope.realloc_under_guard"
   ],
   "note": "Programs of blocks on top of the allocator of C40; invariant: the blocks in use are the own blocks of the program and, disjoint from them, those of the guards."
  },
  {
   "property": "C131",
   "status": "proved",
   "theorems": [
    "Verif.DList.cursor",
    "Verif.DList.sweep_visits",
    "Verif.DList.sweep_removes",
    "Verif.DList.sweep_moves",
    "Verif.DList.late_next_undefined",
    "Verif.OrderedHash.hash_cursor",
    "Verif.OrderedHash.hash_sweep_visits",
    "Verif.OrderedHash.hash_sweep_removes",
    "Verif.OrderedHash.hash_late_next_undefined"
   ],
   "note": "Lists and ordered hashes; the loops are the caller's and part of the model."
  },
  {
   "property": "C132",
   "status": "partial",
   "theorems": [
    "Verif.Race.sem_race_free",
    "Verif.Race.event_race_free",
    "Verif.Race.mutex_race_free_partial",
    "Verif.Race.rwlock_race_free",
    "Verif.Race.winmutex_race_free",
    "Verif.Race.sem_writes",
    "Verif.Race.sem_reads",
    "Verif.Race.event_writes",
    "Verif.Race.event_reads",
    "Verif.Race.mutex_writes",
    "Verif.Race.mutex_reads",
    "Verif.Race.winmutex_writes",
    "Verif.Race.winmutex_reads",
    "Verif.Race.rwlock_writes",
    "Verif.Race.rwlock_reads",
    "Verif.Race.unchecked_lock_races",
    "Verif.Race.unchecked_lock_undefined"
   ],
   "note": "Proved for semaphore, event, read-write lock and Windows mutex as stated, and for the POSIX mutex unless the second pthread_mutex_lock in Mutex::Lock fails: its result is not tested, and then the code does race (unchecked_lock_races). The *_writes and *_reads theorems show that the lists of accesses are complete for the models."
  },
  {
   "property": "C133",
   "status": "partial",
   "theorems": [
    "Verif.RwLock.Full.writer_first_partial",
    "Verif.RwLock.Full.late_reader_waits_partial",
    "Verif.RwLock.Full.reader_gets_ahead",
    "Verif.RwLock.Full.round_turn"
   ],
   "note": "Proved from the end of the first wait of WriteLock (for the write mutex) on, during the whole second wait (for the readers to leave). During the first wait the code breaks the promise: for every n one reader can be let in n times while the writer is woken and blocks again each time, without any failure (reader_gets_ahead)."
  },
  {
   "property": "C134",
   "status": "partial",
   "theorems": [
    "Verif.Progress.sem_work",
    "Verif.Progress.event_work",
    "Verif.Progress.mutex_work",
    "Verif.Progress.rwlock_work",
    "Verif.Progress.sem_goes_partial",
    "Verif.Progress.event_goes",
    "Verif.Progress.mutex_goes_partial",
    "Verif.Progress.rwlock_goes_partial",
    "Verif.Progress.clock_failure_deadlocks"
   ],
   "note": "Part (a) is proved for all four objects without restriction, part (b) for the event without restriction. For the objects that use the semaphore part (b) is proved as long as no clock call fails inside WaitForUnixSemaphore: that failure returns without unlocking the mutex, after which no thread can go on (clock_failure_deadlocks)."
  },
  {
   "property": "C135",
   "status": "proved",
   "theorems": [
    "Verif.Client.posix_no_lost_update",
    "Verif.Client.win_no_lost_update",
    "Verif.Client.posix_one_inside",
    "Verif.Client.win_one_inside"
   ],
   "note": "The program is modelled as a transition system on top of the complete models of the mutex (on POSIX on the real semaphore). That nesting stays below 2^32 - 1 is derived from what the program does, not assumed."
  },
  {
   "property": "C136",
   "status": "proved",
   "theorems": [
    "Verif.Client.Rw.posix_reads_whole",
    "Verif.Client.Rw.win_reads_whole"
   ],
   "note": "The program is modelled as a transition system on top of the complete models of the lock (on POSIX on the real semaphores and event)."
  },
  {
   "property": "C137",
   "status": "proved",
   "theorems": [
    "Verif.Client.Sem.pool_bound",
    "Verif.Client.Win.win_pool_bound"
   ],
   "note": "The program is a transition system on top of the complete model of the semaphore (POSIX), or of the kernel semaphore with calls of three steps (Windows); the threads inside are any list without repetitions."
  },
  {
   "property": "C138",
   "status": "proved",
   "theorems": [
    "Verif.Client.Sem.ring_in_order",
    "Verif.Client.Sem.ring_turns"
   ],
   "note": "On the functions of Util, because Semaphore::Create always begins with the maximum and Semaphore::Unlock does not report a failed release."
  },
  {
   "property": "C139",
   "status": "proved",
   "theorems": [
    "Verif.Client.Event.mailbox_in_order",
    "Verif.Client.Event.mailbox_turns",
    "Verif.Client.Win.win_mailbox_in_order",
    "Verif.Client.Win.win_mailbox_turns"
   ],
   "note": "The ring buffer of C138 with one slot, on the event instead of the semaphore."
  },
  {
   "property": "C140",
   "status": "proved",
   "theorems": [
    "Verif.Client.Event.published",
    "Verif.Client.Win.win_published"
   ],
   "note": "Interleaving semantics. Who may read and the publisher while it may write are never both there, so the data has no race in the sense of C132 either."
  },
  {
   "property": "C141",
   "status": "partial",
   "theorems": [
    "Verif.Crash.sem_crash_linearizable",
    "Verif.Crash.ev_crash_linearizable",
    "Verif.Crash.sem_lives_partial",
    "Verif.Crash.ev_lives_partial",
    "Verif.Crash.sem_killed_inside",
    "Verif.Crash.ev_killed_inside",
    "Verif.Crash.ev_killed_asleep"
   ],
   "note": "(a) is proved as stated. (b) is proved if nobody was killed while holding the internal mutex (and the maximum is below 2^32 - 1) and, for automatic events, nobody while counted in MxWaiting. Both restrictions are needed: the mutex is not robust, so after a death inside nothing ever succeeds again (sem_killed_inside, ev_killed_inside, for all states and continuations), and after a death in the sleep of Wait an automatic event answers false to every Wait(0) although it is signalled (ev_killed_asleep, for fewer than 2^32 threads)."
  },
  {
   "property": "C142",
   "status": "partial",
   "theorems": [
    "Verif.Crash.mutex_crash_linearizable_partial",
    "Verif.Crash.rw_crash_linearizable_partial",
    "Verif.Crash.mutex_lives_partial",
    "Verif.Crash.rw_lives_partial",
    "Verif.Crash.mutex_killed_holder",
    "Verif.Crash.rw_killed_writer",
    "Verif.Crash.rw_killed_reader",
    "Verif.Crash.rw_killed_midway"
   ],
   "note": "(a) is proved with fewer than 2^32 levels or readers (C35, C37 say why that is needed). (b) is proved if nobody was killed while having the lock, and everybody killed was outside or waiting for the lock asleep or just woken (and no system call failed in the semaphores). It is false without that: the dead never give anything back, so after the death of the holder nobody ever locks the mutex again (mutex_killed_holder), after that of a writer nobody gets any lock (rw_killed_writer), after that of a reader nobody gets the write lock (rw_killed_reader), and after a death in the middle of a lock call, for example of a writer asleep waiting for the readers, no later call succeeds although nobody has the lock (rw_killed_midway), for all states and continuations. Not covered: deaths inside the internal mutexes, which C141 shows to block everything."
  },
  {
   "property": "C143",
   "status": "proved",
   "theorems": [
    "Verif.Crash.win_sem_crash_linearizable",
    "Verif.Crash.win_ev_crash_linearizable",
    "Verif.Crash.win_sem_lives",
    "Verif.Crash.win_ev_lives"
   ],
   "note": "The object of the kernel makes each operation one step, so no death leaves it half done; compare C141, where on POSIX a death inside the internal mutex blocks everybody. Units that a killed thread has taken are not given back: that is part of the effects so far."
  },
  {
   "property": "C144",
   "status": "partial",
   "theorems": [
    "Verif.Crash.win_rw_crash_linearizable",
    "Verif.Crash.win_rw_lives_partial",
    "Verif.Crash.win_rw_killed_writer",
    "Verif.Crash.win_rw_killed_reader",
    "Verif.Crash.win_rw_killed_midway",
    "Verif.Crash.win_rw_killed_leaving"
   ],
   "note": "(a) is proved in full. (b) is proved if nobody is inside the lock, nobody was killed while it had one of the two internal mutexes, and no release or set has failed. It is false without that, for all states and continuations: after the death of a writer nobody gets any lock (win_rw_killed_writer), after that of a reader nobody gets the write lock (win_rw_killed_reader), after a death in the middle of a lock call or of WriteUnlock no later lock call succeeds (win_rw_killed_midway), and after a death in the middle of ReadUnlock no later ReadLock or ReadUnlock succeeds (win_rw_killed_leaving). The code uses semaphores as mutexes there, which Windows does not give back."
  },
  {
   "property": "C145",
   "status": "partial",
   "theorems": [
    "Verif.AppInfo.Mac.mac_exe_name_partial",
    "Verif.AppInfo.Mac.mac_exe_path_partial",
    "Verif.AppInfo.Mac.mac_empty_buffer",
    "Verif.AppInfo.Mac.mac_small_buffer",
    "Verif.AppInfo.Mac.mac_link_unterminated"
   ],
   "note": "Proved for buffers that are not empty on systems without /proc links (macOS has none): the call stays inside the buffer and finds the path the system knows if the buffer has at least 1024 bytes, otherwise the one given by argv[0]. The full claim is false: an empty buffer is read (mac_empty_buffer), buffers of less than 1024 bytes are refused by the system, so without argv[0] the call fails however short the name is (mac_small_buffer), and where a /proc link exists strlen reads what readlink has not terminated (mac_link_unterminated). As in C65 the directory may end at a backslash."
  },
  {
   "property": "C146",
   "status": "partial",
   "theorems": [
    "Verif.Timing.Mac.mac_deadline_partial",
    "Verif.Timing.Mac.mac_clock_port_partial",
    "Verif.Timing.Mac.mac_clock_wraps",
    "Verif.Timing.Mac.mac_clock_port_kept",
    "Verif.Timing.Mac.mac_host_port_kept"
   ],
   "note": "The deadline is proved exact until the year 2106, when the 32 bits of mach_timespec_t are used up (mac_clock_wraps). The rest is false: mach_host_self gives one more right at every call and none is ever given back (mac_host_port_kept), and if clock_get_time fails the right to the clock port is kept (mac_clock_port_kept); the clock port is given back if nothing fails (mac_clock_port_partial)."
  },
  {
   "property": "C147",
   "status": "partial",
   "theorems": [
    "Verif.WinLink.Priv.privilege_keeps",
    "Verif.WinLink.Priv.privilege_true",
    "Verif.WinLink.Priv.privilege_set_partial",
    "Verif.WinLink.Priv.symlink_keeps",
    "Verif.WinLink.Priv.symlink_held",
    "Verif.WinLink.Priv.symlink_unheld",
    "Verif.WinLink.Priv.symlink_leaves_on",
    "Verif.WinLink.Priv.symlink_library_kept",
    "Verif.WinLink.Priv.privilege_wrong_token"
   ],
   "note": "Proved: who holds the privilege makes links as on a system that asks for none (symlink_held), others make none (symlink_unheld), no other privilege changes and every handle is closed (privilege_keeps, symlink_keeps), and the privilege is set for the account the thread acts for if the requests are granted (privilege_set_partial). The rest is false: the privilege stays enabled afterwards even if no link was made (symlink_leaves_on), each call keeps a reference to the library (symlink_library_kept), and a thread that may not open its own token changes that of the process and takes it for success (privilege_wrong_token)."
  },
  {
   "property": "C148",
   "status": "partial",
   "theorems": [
    "Verif.Client.Join.join_all",
    "Verif.Client.Join.join_reads",
    "Verif.Client.Join.win_join_all",
    "Verif.Client.Join.win_join_reads",
    "Verif.Client.Join.win_join_through",
    "Verif.Client.Join.join_through_partial",
    "Verif.Client.Join.join_lost",
    "Verif.Client.Join.join_created_lost"
   ],
   "note": "The first half is proved for both platforms, every count and maximum, with all steps of the semaphore. That the waiting thread gets through is proved for Windows (win_join_through) and for POSIX if the maximum is at least the initial count and the number of workers together (join_through_partial). Otherwise it is false on POSIX: a release on a full semaphore says true and the unit is lost (join_lost), and a semaphore made by Create is always full at the beginning (join_created_lost)."
  },
  {
   "property": "C149",
   "status": "partial",
   "theorems": [
    "Verif.Client.Order.ordered_locks_go_partial",
    "Verif.Client.Order.unordered_deadlock",
    "Verif.Client.Order.win_ordered_locks_go_partial",
    "Verif.Client.Order.win_unordered_deadlock"
   ],
   "note": "For mutexes locked less than 2^32 - 1 deep through one object, if no system call fails inside a semaphore (a failing clock leaves its mutex locked and nobody gets further, clock_failure_deadlocks of C134; the theorem excludes the other failing calls there as well, waits may time out), and on Windows if no thread ends holding a mutex and no ReleaseMutex fails (win_mutex_release_failure of C103). unordered_deadlock and win_unordered_deadlock show that the order is needed. Every mutex has its own execution over the same threads, and nothing is assumed about how they interleave; that a thread is in one call at a time is not used."
  },
  {
   "property": "C150",
   "status": "partial",
   "theorems": [
    "Verif.Client.Order.mixed_order_go_partial",
    "Verif.Client.Order.reread_deadlock"
   ],
   "note": "With the conditions of C69, C100 and C103: no counter overflows (2^32 - 1 nested locks or readers, on Windows 2^31 - 1 readers), on POSIX no system call fails inside the semaphores and events and no infinite wait for them ends as if timed out, on Windows no ReleaseMutex fails, in the reader-writer lock no call fails except waits that may time out and the reset of the event, and no thread ends holding a mutex. For some of these failures it is shown there that somebody waits for ever; the theorem excludes all of them. Finite waits may time out. reread_deadlock shows that a reader-writer lock must not be asked for again, not even for reading, because a writer that waits comes first."
  },
  {
   "property": "C151",
   "status": "partial",
   "theorems": [
    "Verif.Client.Nest.nested_program_goes_partial",
    "Verif.Client.Nest.opposite_stuck",
    "Verif.Client.Nest.win_nested_program_goes_partial",
    "Verif.Client.Nest.win_opposite_stuck"
   ],
   "note": "For scripts of fewer than 2^32 - 3 calls, on POSIX if no system call fails inside a semaphore (a failing clock leaves its mutex locked, clock_failure_deadlocks of C134; the theorem excludes the other failing calls there as well). On Windows if no ReleaseMutex fails (win_mutex_release_failure of C103) and no thread ends before the program does. Failing calls on the critical section of the object (POSIX) and waits that time out are allowed. Going on means a step of the thread itself, not a time running out or a wake-up without reason. That everything is finished after finitely many steps is C152, for Windows. opposite_stuck and win_opposite_stuck show a program that takes two mutexes in opposite orders and gets stuck."
  },
  {
   "property": "C152",
   "status": "partial",
   "theorems": [
    "Verif.Client.Nest.win_nested_program_ends_partial",
    "Verif.Client.Nest.win_nested_program_finishes_partial"
   ],
   "note": "With the conditions of C151: scripts of fewer than 2^32 - 3 calls, no ReleaseMutex fails (win_mutex_release_failure of C103) and no thread ends before the program does. Earlier calls may have had time limits and may have timed out. The bound is explicit: a sum over the threads of what is left of the script and of the current call. The POSIX branch is not covered here, C151 shows that it does not get stuck."
  }
 ]
}