{"id": "C01", "title": "Integer to text round-trips", "statement": "Whenever Convert::Int::ToString(Result, Size, Num, Separator, Radix) returns true for an unsigned number, the bytes left in Result form a NUL-terminated text which, after deleting the separator characters, consists of the digits 0-9A-Z of Num in base Radix, most significant first, with no superfluous leading zero; reading that text back in base Radix gives exactly Num.", "quantifier": "every 64-bit number, every radix, every separator character, every buffer size and previous buffer contents", "why_tests_cant": "2^64 numbers times 35 radixes times all buffer sizes and separators; tests check a handful of literals and only that the call returned true.", "anchors": ["convert/convert_int.cpp: Int::ToString(char*, size_t, uint64_t, char, size_t)"]}
{"id": "C02", "title": "Integer to text succeeds exactly when the text fits, and stays inside the buffer", "statement": "ToString on an unsigned number never writes outside Result[0..Size), and returns true exactly when Radix is between 2 and 36 and the full text (digits, separators, terminator) fits in Size bytes.", "quantifier": "every 64-bit number, radix (including invalid), separator and buffer size (including 0 and 1)", "why_tests_cant": "Out-of-bounds writes at one unlucky size/number pair are silent; only a proof covers all boundary sizes.", "anchors": ["convert/convert_int.cpp: Int::ToString(char*, size_t, uint64_t, char, size_t)"]}
{"id": "C03", "title": "Thousands separators are placed every three digits from the right", "statement": "When a separator is requested, a successful ToString places it between two digits exactly when the number of digits to the right is a positive multiple of three, and nowhere else (never leading, never trailing, never doubled).", "quantifier": "every number, radix and separator character", "why_tests_cant": "Placement depends on the digit count and buffer boundary; unbounded combinations.", "anchors": ["convert/convert_int.cpp: Int::ToString"]}
{"id": "C04", "title": "Signed integer to text", "statement": "For a signed 64-bit number, a successful ToString yields an optional leading '-' (present exactly for negative numbers) followed by the unsigned rendering of the magnitude; it stays inside the buffer and succeeds exactly when that text fits.", "quantifier": "every signed 64-bit number including the minimum, every buffer size", "why_tests_cant": "The minimum value makes the negation overflow (undefined behaviour); tests on ordinary values cannot reveal it.", "anchors": ["convert/convert_int.cpp: Int::ToString(char*, size_t, int64_t, char, size_t)"]}
{"id": "C05", "title": "File size text stays inside the buffer", "statement": "ToFilesizeString never writes outside Result[0..Size) and on success leaves a NUL-terminated text that ends with the unit suffix.", "quantifier": "every 64-bit number, every number of fraction digits, separator, unit name and buffer size", "why_tests_cant": "The routine writes backwards with several data dependent exits; only a proof covers all exits.", "anchors": ["convert/convert_int.cpp: Int::ToFilesizeString"]}
{"id": "C06", "title": "File size text is numerically right", "statement": "On success ToFilesizeString prints the number divided by the chosen unit (a power of 1024, chosen from the size), truncated to the requested number of fraction digits.", "quantifier": "every 64-bit number and every requested number of fraction digits", "why_tests_cant": "A wrap-around in the scaled remainder only shows for large units combined with several fraction digits.", "anchors": ["convert/convert_int.cpp: Int::ToFilesizeString"]}
{"id": "C07", "title": "JSON serializer never leaves its buffer", "statement": "For every sequence of Serializer calls made after SetBuffer with a buffer of at least one byte, all writes stay inside the buffer and the text in the buffer is NUL-terminated after every call.", "quantifier": "every finite history of calls with arbitrary arguments, buffer sizes, splitters, escape settings", "why_tests_cant": "Each call reserves space with its own size estimate; only an induction over histories shows every estimate covers what is written.", "anchors": ["json/json_serializer.cpp: all Append*/Start*/End*/Finish, CalculateStrSize, InternalAppendStr"]}
{"id": "C08", "title": "A failed JSON call has no effect", "statement": "If any Serializer call returns false then the text produced so far, the nesting depth, and the behaviour of all later calls are the same as if the call had not been made.", "quantifier": "every serializer state reachable by any history, every call, every argument", "why_tests_cant": "All error paths in all states must be inspected; callers use this to flush the buffer and retry.", "anchors": ["json/json_serializer.cpp"]}
{"id": "C09", "title": "Finished JSON text is the document the calls describe", "statement": "For every history of successful calls ending in Finish, the buffer holds exactly one well-formed JSON text, whose value (nesting, order of members, keys, strings, numbers, literals) is the document described by the calls.", "quantifier": "every finite history of calls", "why_tests_cant": "Unboundedly many documents; commas, splitters and closers depend on the whole nesting history.", "anchors": ["json/json_serializer.cpp", "json/json_serializer.h"]}
{"id": "C10", "title": "JSON string escaping round-trips", "statement": "Un-escaping (by the JSON grammar) the text produced for a string gives back exactly the original bytes, for both settings of slash escaping.", "quantifier": "every byte string", "why_tests_cant": "All byte sequences, including quotes, backslashes, slashes and control characters.", "anchors": ["json/json_serializer.cpp: InternalAppendStr, CalculateStrSize"]}
{"id": "C11", "title": "JSON structural rules are enforced", "statement": "A value call succeeds only where JSON allows it: inside an object exactly when a key is supplied, elsewhere exactly when none is supplied, at the root only once, and never deeper than the configured depth; EndObject/EndArray/EndStr succeed only when the innermost open scope is of that kind.", "quantifier": "every history of calls", "why_tests_cant": "Requires knowing the nesting for every history.", "anchors": ["json/json_serializer.cpp: InternalAppendNextPrefix, Start*, End*"]}
{"id": "C12", "title": "Finish closes every open scope", "statement": "If Finish succeeds, the text it leaves is the earlier text followed by the closers of all open scopes, innermost first, and the depth is zero; it fails, changing nothing, only when the closers do not fit.", "quantifier": "every nesting of objects, arrays and strings of any depth", "why_tests_cant": "Unbounded nesting.", "anchors": ["json/json_serializer.cpp: Serializer::Finish"]}
{"id": "C13", "title": "JSON numbers are exact", "statement": "AppendInt/AppendUInt write the exact decimal text of the number (with a minus sign for negatives) for every 64-bit value.", "quantifier": "every 64-bit signed and unsigned value", "why_tests_cant": "2^64 values, with undefined negation at the minimum.", "anchors": ["json/json_serializer.cpp: AppendInt, AppendUInt, IntToString"]}
{"id": "C14", "title": "Doubly linked list behaves like a sequence", "statement": "After every sequence of List operations (push, pop, insert before/after, detach, remove, empty) made with nodes in their documented state, walking forward from the first node and backward from the last node visit exactly the elements of the abstract sequence the operations describe, and GetNumNodes is its length; no operation touches freed or unowned memory.", "quantifier": "every finite history of list operations", "why_tests_cant": "Pointer structure must be right after every history, in both directions.", "anchors": ["templates/detachable_list_util.h", "templates/detachable_list.h"]}
{"id": "C15", "title": "Detaching and re-attaching a list node loses nothing", "statement": "Detach removes exactly that node and leaves the node usable; re-inserting it elsewhere yields the same multiset of nodes with only that node moved; inserting a node that is attached is refused.", "quantifier": "every list and every node of it", "why_tests_cant": "Arbitrary list shapes incl. singleton list, first and last nodes.", "anchors": ["templates/detachable_list_util.h: Detach, InsertBefore, InsertAfter"]}
{"id": "C16", "title": "Copying a list gives an independent equal list", "statement": "Copy construction and assignment give a list with the same values in the same order, sharing no nodes with the source; later operations on one do not affect the other.", "quantifier": "every source list and every destination list", "why_tests_cant": "Needs all shapes plus separation of memory.", "anchors": ["templates/detachable_list_util.h: copy constructor, operator="]}
{"id": "C17", "title": "Queue is first-in first-out", "statement": "After every history of Queue Push/Unshift/Pop-style operations the values come out in the order of the abstract double-ended sequence, and GetNumNodes is its length.", "quantifier": "every finite history of queue operations", "why_tests_cant": "Unbounded histories; pointer corner cases when the queue becomes empty.", "anchors": ["templates/detachable_queue_util.h"]}
{"id": "C18", "title": "Ordered hash is an insertion-ordered map", "statement": "After every history of OrderedHash inserts, finds, detaches and removes, Find(key) returns the node most recently attached under that key or NULL if none, integer and string keys never collide with each other, a second insert of a present key is refused, and iteration yields the nodes in list order.", "quantifier": "every finite history of operations, every hash function outcome (including all keys colliding) and every table size", "why_tests_cant": "Collisions and table sizes vary without bound.", "anchors": ["templates/detachable_ordered_hash_util.h: Find, InsertBefore, InsertAfter, Detach"]}
{"id": "C19", "title": "Ordered hash order follows the insert operation", "statement": "Push appends, Unshift prepends, InsertBefore/After place the node next to the named node, Detach removes only that node; the relative order of all other nodes never changes.", "quantifier": "every history and every position", "why_tests_cant": "Unbounded histories.", "anchors": ["templates/detachable_ordered_hash_util.h"]}
{"id": "C20", "title": "Ordered hash resizing is invisible", "statement": "Growing the table (automatically or by ResizeHash) changes neither the iteration order nor the result of any Find.", "quantifier": "every table content, every new size of at least one", "why_tests_cant": "Every distribution of nodes over buckets must be re-linked correctly.", "anchors": ["templates/detachable_ordered_hash_util.h: ResizeHash"]}
{"id": "C21", "title": "Copying an ordered hash gives an equal ordered hash", "statement": "After copy construction or assignment, Find on the copy finds a node with the same value for exactly the keys present in the source, and iteration order is the same.", "quantifier": "every source hash", "why_tests_cant": "All shapes; the shipped test never looks up a key in a copy.", "anchors": ["templates/detachable_ordered_hash_util.h: copy constructor, operator="]}
{"id": "C22", "title": "Packed ordered hash is an insertion-ordered map", "statement": "After every history of PackedOrderedHash Set/Unset/Find/Get, Find(key) returns the last value set for the key and not unset since, Set on a present key keeps its position, Next/Prev iteration visits exactly the live entries in insertion order (resp. reverse), and Unset reports whether the key was present.", "quantifier": "every finite history, every hash function outcome", "why_tests_cant": "Unbounded histories, collisions, growth and compaction interleaved.", "anchors": ["templates/packed_ordered_hash_util.h"]}
{"id": "C23", "title": "Packed ordered hash growth and compaction are invisible", "statement": "Automatic growth, Optimize and ResizeHash change neither lookups nor iteration order, and never lose or duplicate an entry.", "quantifier": "every table content with any pattern of unset entries", "why_tests_cant": "All patterns of holes and chains.", "anchors": ["templates/packed_ordered_hash_util.h: Optimize, AutoResizeHash, InternalResizeHash"]}
{"id": "C24", "title": "Copying a packed ordered hash gives an equal one", "statement": "After copy construction or assignment the copy has the same entries in the same order and the operation reads and writes only memory of the two tables.", "quantifier": "every source table", "why_tests_cant": "The loop bound compares pointers of different arrays; only specific memory layouts misbehave.", "anchors": ["templates/packed_ordered_hash_util.h: copy constructor, operator="]}
{"id": "C25", "title": "Cache never returns a stale or foreign value", "statement": "After every history of Cache Insert/Remove/Empty/copy/assignment operations (the caller passing a hash that depends only on the key), a hit of Find/Exists on a key returns the value most recently stored for that very key and not removed or displaced since; a miss is possible only if the key was removed, never stored, or displaced by another key of the same slot.", "quantifier": "every history, every table size of at least one, every hash outcome", "why_tests_cant": "Unbounded histories and slot collisions.", "anchors": ["templates/cache_util.h", "templates/cache.cpp"]}
{"id": "C26", "title": "Static vector copies and indexing", "statement": "A StaticVector behaves as a fixed-length array: a write to index i is read back at i and changes no other index; a copy or assignment gives an equal independent vector; equality holds exactly for equal sizes and elements.", "quantifier": "every size, index and content", "why_tests_cant": "All sizes and contents.", "anchors": ["templates/static_vector.h"]}
{"id": "C27", "title": "Static 2D array copies and indexing", "statement": "A Static2DArray behaves as a fixed rows x columns array: writes to one cell change only that cell; assignment and comparison work for every pair of dimensions.", "quantifier": "every pair of dimensions, every content", "why_tests_cant": "Assignment between different dimensions takes a separate path that tests never exercise.", "anchors": ["templates/static_2d_array.h"]}
{"id": "C28", "title": "FastFind reports exactly the occurrences", "statement": "Repeated FindNext reports precisely the start positions (in increasing order, overlapping ones included unless SkipMatch is called) at which the pattern occurs in the data, then reports no match; it never reads outside pattern or data.", "quantifier": "every data, every non-empty pattern, every element type with decidable equality", "why_tests_cant": "The search filters candidates through data-dependent probe positions; only a proof shows no occurrence is filtered out for any pattern/data.", "anchors": ["templates/fast_find_replace_util.h: FastFind::SetPattern, FindNext, SkipMatch"]}
{"id": "C29", "title": "ReplaceAll is left-to-right non-overlapping replacement", "statement": "ReplaceAll returns the data with the leftmost non-overlapping occurrences (up to the given limit) replaced, and everything else unchanged; it touches only its own buffers.", "quantifier": "every data, pattern, replacement and limit", "why_tests_cant": "Lengths vary without bound; limit and buffer growth paths are data dependent.", "anchors": ["templates/fast_find_replace_util.h: FastReplace"]}
{"id": "C30", "title": "UTF-8 encoding accepts exactly the valid code points and encodes them in the standard form", "statement": "AppendUTF8CodePoint appends the standard shortest UTF-8 form for every Unicode scalar value that is not a noncharacter (and not a combining mark at the start of the output, which the code refuses by design), rejects every other number, and does not touch memory when it does not fit.", "quantifier": "every 32-bit number and every remaining buffer size", "why_tests_cant": "Whole code space times buffer sizes.", "anchors": ["utf8/utf8_util.cpp: AppendUTF8CodePoint"]}
{"id": "C31", "title": "UTF-8 to UTF-16/32 and back is the identity", "statement": "Converting a valid code point sequence that does not start with a combining mark to UTF-8 and back to UTF-16 or UTF-32 gives the same sequence when the buffers are large enough.", "quantifier": "every sequence of valid code points, both unit widths", "why_tests_cant": "Unbounded sequences, surrogate pairs.", "anchors": ["utf8/utf8_util.cpp: ConvertToUTF8, ConvertFromUTF8"]}
{"id": "C32", "title": "UTF-8 conversion is safe on arbitrary input", "statement": "ConvertToUTF8 and ConvertFromUTF8 on arbitrary (also ill-formed) input read only the given input, write only inside the destination, and produce only well-formed output.", "quantifier": "every input byte/unit sequence and destination size", "why_tests_cant": "Ill-formed inputs, truncated sequences at the end of input.", "anchors": ["utf8/utf8_util.cpp: ConvertToUTF8, ConvertFromUTF8, AppendUTFCodePoint"]}
{"id": "C33", "title": "Counting UTF-8 characters terminates and is right", "statement": "Util::strlen returns, for every valid UTF-8 string, the number of its characters (combining code points attached to their base).", "quantifier": "every NUL-terminated string", "why_tests_cant": "Termination for all inputs.", "anchors": ["utf8/utf8_util.cpp: Util::strlen, NextCodePoint"]}
{"id": "C34", "title": "Semaphore counts are conserved", "statement": "In every interleaving of waits and releases on a semaphore, the number of successful waits minus the number of released units never exceeds the initial count, the count stays within 0..maximum, and a release never pushes it above the maximum.", "quantifier": "every number of threads, every interleaving, every sequence of operations", "why_tests_cant": "Schedules cannot be enumerated by tests.", "anchors": ["sync/sync_util.cpp: GetUnixSemaphore, WaitForUnixSemaphore, ReleaseUnixSemaphore", "sync/sync_semaphore.cpp"]}
{"id": "C35", "title": "Mutex excludes and is re-entrant", "statement": "In every interleaving at most one thread holds the Sync::Mutex; the holder may lock again and must unlock as many times; Unlock by a thread that does not hold it fails without effect.", "quantifier": "every number of threads and of objects sharing the mutex, every interleaving of Lock/Unlock calls", "why_tests_cant": "Schedules, including the window between the semaphore wait and the owner update.", "anchors": ["sync/sync_mutex.cpp (POSIX branch)"]}
{"id": "C36", "title": "Automatic events wake at most one waiter per fire; manual events stay open", "statement": "For an automatic event the number of successful waits never exceeds the number of fires (plus one if initially signalled); for a manual event a wait succeeds as long as the event is signalled and Reset closes it.", "quantifier": "every interleaving of Wait/Fire/Reset by any number of threads", "why_tests_cant": "Schedules and spurious wake-ups.", "anchors": ["sync/sync_util.cpp: WaitForUnixEvent, FireUnixEvent, ResetUnixEvent"]}
{"id": "C37", "title": "Reader-writer lock exclusion", "statement": "In every interleaving of correctly paired calls, a writer never overlaps another writer or any reader.", "quantifier": "every number of threads and every interleaving", "why_tests_cant": "Schedules; the implementation combines a semaphore, a counter and an event in several non-atomic steps.", "anchors": ["sync/sync_readwritelock.cpp (POSIX branch)"]}
{"id": "C38", "title": "Named objects are shared exactly by name", "statement": "Two processes that open a named object of the same kind, size and name reach the same object, and different names (or kinds or sizes) reach different objects.", "quantifier": "every pair of names and sizes", "why_tests_cant": "All names including ones with slashes and very long ones.", "anchors": ["sync/sync_util.cpp: InitUnixNamedMem"]}
{"id": "C39", "title": "Named shared memory is initialised once", "statement": "Among all openers of a named object exactly one is told to initialise it, and no opener uses it before initialisation completes; opening only touches the object's own memory.", "quantifier": "every interleaving of opens, closes and crashes", "why_tests_cant": "Schedules and re-opening histories.", "anchors": ["sync/sync_util.cpp: InitUnixNamedMem, UnixNamedMemReady, UnmapUnixNamedMem"]}
{"id": "C40", "title": "Thread-local allocator returns disjoint, large enough blocks", "statement": "Every block returned by TLS malloc/realloc is at least as large as requested, does not overlap any other live block, and a freed block is reused only for requests it can hold; realloc keeps the old contents.", "quantifier": "every history of malloc/realloc/free of any sizes", "why_tests_cant": "Unbounded histories and sizes around bucket boundaries.", "anchors": ["sync/sync_tls.cpp: TLS::malloc, realloc, free, GetBucketInfo"]}
{"id": "C41", "title": "Mixed variable strings are truncated safely", "statement": "StaticMixedVar SetStr/AppendStr/SetData/AppendData/Prepend never write outside the fixed buffer, keep it NUL-terminated, and store the longest prefix that fits (prepend: all or nothing).", "quantifier": "every buffer size, every previous content, every argument", "why_tests_cant": "Boundary conditions for every buffer size.", "anchors": ["templates/static_mixed_var.h"]}
{"id": "C42", "title": "Mixed variable values round-trip", "statement": "Reading back an integer, boolean, double bits or string stored in a mixed variable gives the stored value, and the textual form appended for an integer is its exact numeral.", "quantifier": "every value", "why_tests_cant": "2^64 values and all radixes.", "anchors": ["templates/static_mixed_var.h: Set*/Get*, IntToString, AppendInt, AppendUInt"]}
{"id": "C43", "title": "Absolute path building removes dot segments", "statement": "When GetAbsoluteFilename returns true the result is an absolute path with no empty, '.' or '..' component, equal to resolving Filename against BaseDir, and the result fits in the given buffer.", "quantifier": "every base directory, file name, and result buffer size", "why_tests_cant": "Path traversal bugs hide in unusual placements of dots and slashes.", "anchors": ["utf8/utf8_file_dir.cpp: File::GetAbsoluteFilename (POSIX branch)"]}
{"id": "C44", "title": "File name validation accepts exactly the allowed names", "statement": "IsValidFilenameFormat accepts exactly the non-empty well-formed UTF-8 names without control characters and without any of * ? \" < > |, that fit the buffer, and the produced name differs from the input only by '\\\\' becoming '/'.", "quantifier": "every byte string", "why_tests_cant": "All byte strings, in particular all non-ASCII names.", "anchors": ["utf8/utf8_file_dir.cpp: File::GetPlatformFilename (POSIX branch), IsValidFilenameFormat"]}
{"id": "C45", "title": "File name parts partition the name", "statement": "GetPlatformFilenameInfo splits a name so that the pieces directory, base name, and extension concatenate back to the name, the directory part ends in a separator or is empty, the base name contains no separator, and the last extension starts at the last dot of the file part.", "quantifier": "every name", "why_tests_cant": "All placements of separators and dots.", "anchors": ["utf8/utf8_file_dir.cpp: File::GetPlatformFilenameInfo (POSIX branch)"]}
{"id": "C46", "title": "Seeking clamps to the file", "statement": "After a successful Seek the current position is the requested one clamped to the range 0..size.", "quantifier": "every position, size, offset and origin", "why_tests_cant": "64-bit wrap-around at extreme offsets.", "anchors": ["utf8/utf8_file_dir.cpp: File::Seek (POSIX branch)"]}
{"id": "C47", "title": "Reading and writing a file behave like a byte array with a cursor", "statement": "For every history of Seek/Read/Write on an open file, reads return the bytes at the cursor, writes replace/extend the bytes at the cursor, the cursor moves by the number of bytes transferred, and this remains true when the system call transfers fewer bytes or is interrupted.", "quantifier": "every history, every choice of short transfers and interruptions by the operating system", "why_tests_cant": "Short writes and signals are rare and nondeterministic.", "anchors": ["utf8/utf8_file_dir.cpp: File::Read, Write, Seek (POSIX branch)"]}
{"id": "C48", "title": "Line input splits a file into its lines", "statement": "Repeated LineInput calls return exactly the lines of the file (terminated by CR, LF or CRLF, NUL replaced by blank), each byte being consumed once, for every size hint of at least one; it touches only memory it allocated.", "quantifier": "every file content and every size hint", "why_tests_cant": "Terminators straddling any chunk boundary.", "anchors": ["utf8/utf8_file_dir.cpp: File::LineInput"]}
{"id": "C49", "title": "Copying a file copies exactly its bytes", "statement": "When File::Copy returns true the destination has exactly the bytes of the source.", "quantifier": "every source content and previous destination content", "why_tests_cant": "File lengths around the block size; garbage tail is only visible for lengths that are not a multiple of the block.", "anchors": ["utf8/utf8_file_dir.cpp: File::Copy (POSIX branch)"]}
{"id": "C50", "title": "Loading a file returns exactly its bytes", "statement": "When LoadEntireFile returns true the returned block has exactly the file's bytes and size; otherwise no block is returned and none is leaked.", "quantifier": "every file content, every outcome of the underlying read", "why_tests_cant": "All lengths and short reads.", "anchors": ["utf8/utf8_file_dir.cpp: File::LoadEntireFile"]}
{"id": "C51", "title": "Random integers are in range and unbiased", "statement": "GetInteger returns a value between Min and Max inclusive (in either order), and every value of the range is produced by the same number of random words, so uniform random bytes give a uniform result.", "quantifier": "every pair of 64-bit bounds and every random byte stream", "why_tests_cant": "Bias and range errors at power-of-two boundaries are statistically invisible.", "anchors": ["security/security_csprng.cpp: CSPRNG::GetInteger"]}
{"id": "C52", "title": "Random byte requests are filled completely or refused", "statement": "GetBytes returns true only after all requested bytes came from the generator, and returns false (rather than looping) when the generator keeps failing.", "quantifier": "every behaviour of the operating system read call", "why_tests_cant": "Failure behaviours of the device cannot be provoked in tests.", "anchors": ["security/security_csprng.cpp: CSPRNG::GetBytes (POSIX branch)"]}
{"id": "C53", "title": "Storage directory lookup respects the buffer", "statement": "GetSystemAppStorageDir, GetCurrentUserAppStorageDir and GetTempStorageDir never write outside the caller's buffer; on success the buffer holds a NUL-terminated path ending in '/' and BufferSize counts it with its terminator; on failure BufferSize is zero.", "quantifier": "every buffer size, home directory and application directory", "why_tests_cant": "Exact-fit buffer sizes.", "anchors": ["utf8/utf8_appinfo.cpp: AppInfo::GetNIXStorageDir and callers"]}
{"id": "C54", "title": "Shared library calls reach the function", "statement": "A call through a FunctionUtil invokes the library function and returns true whenever the library and function can be loaded, on the first and on every later call, and loads the library at most once.", "quantifier": "every sequence of calls (with or without return value) and every outcome of the loader", "why_tests_cant": "The failing variant is simply never exercised by the test suite.", "anchors": ["templates/shared_lib.h", "templates/shared_lib_util.h"]}
{"id": "C55", "title": "Recursive directory removal stays inside the directory", "statement": "Rmdir with Recursive never removes anything outside the named directory tree (in particular it does not follow symbolic links) and, if no system call fails and no path gets too long, removes the whole tree.", "quantifier": "every directory tree", "why_tests_cant": "Unbounded tree shapes with links.", "anchors": ["utf8/utf8_file_dir.cpp: Dir::Rmdir, Rmdir_RecurseInternal (POSIX branch)"]}
{"id": "C56", "title": "Recursive directory creation creates all parents", "statement": "Mkdir with Recursive requests creation of every proper ancestor of the absolute directory name from the top down and then of the directory itself.", "quantifier": "every absolute path", "why_tests_cant": "Unbounded depth.", "anchors": ["utf8/utf8_file_dir.cpp: Dir::Mkdir (POSIX branch)"]}
{"id": "C57", "title": "Key hashing reads only the key and depends only on the key", "statement": "The DJB and SipHash key functions read exactly the bytes of the key, and equal keys (bytes and length) hash equally, whatever surrounds them in memory.", "quantifier": "every key of every length, every surrounding memory", "why_tests_cant": "Word-wise reads at the tail of the key may touch neighbouring bytes only for some lengths.", "anchors": ["templates/detachable_ordered_hash.cpp", "templates/packed_ordered_hash.cpp", "templates/cache.cpp"]}
{"id": "C58", "title": "The last converted position can be used to resume", "statement": "After ConvertToUTF8 with a LastPos argument, *LastPos is the number of source units converted, so that a caller can continue from there.", "quantifier": "every source, every width, every destination size", "why_tests_cant": "Depends on the kind of the last sequence.", "anchors": ["utf8/utf8_util.cpp: ConvertToUTF8 (LastPos)"]}
{"id": "C59", "title": "The allocating UTF-8 conversion returns a complete, terminated string", "statement": "ConvertToUTF8 without a buffer returns, for every NUL-terminated source of 8-, 16- or 32-bit units, a block of exactly the needed size that is completely written and ends with a NUL.", "quantifier": "every terminated source, every width", "why_tests_cant": "Ill-formed sources; exactness of a size computed in a separate pass.", "anchors": ["utf8/utf8_util.cpp: ConvertToUTF8 (allocating)"]}
{"id": "C60", "title": "A blocked waiter is woken when it can proceed", "statement": "No thread stays blocked in a semaphore or event wait while the object would let it pass: when all other threads are outside, a blocked waiter implies that the count is zero (the event is not signalled).", "quantifier": "every number of threads, every interleaving, every history of waits, time-outs, releases, fires and resets", "why_tests_cant": "Lost wake-ups need particular interleavings of a time-out with a release or fire.", "anchors": ["sync/sync_util.cpp: WaitForUnixSemaphore, ReleaseUnixSemaphore, WaitForUnixEvent, FireUnixEvent"]}
{"id": "C61", "title": "A failing system call leaves the semaphore usable", "statement": "When a system call inside a semaphore operation fails, the operation reports failure and the semaphore stays usable by all threads: its internal mutex is not left locked.", "quantifier": "every execution and every choice of failing calls", "why_tests_cant": "The failing calls practically never fail in a test environment.", "anchors": ["sync/sync_util.cpp: WaitForUnixSemaphore, ReleaseUnixSemaphore"]}
{"id": "C62", "title": "dup_malloc returns a system block with the same contents", "statement": "TLS::dup_malloc of a live block returns a block of the system allocator, not overlapping any live block, that begins with everything written to the live block, and frees the latter without touching other live blocks.", "quantifier": "every history of malloc/realloc/free/accesses, every live block", "why_tests_cant": "The size is taken from a mark in front of the block; only some histories make it stale.", "anchors": ["sync/sync_tls.cpp: TLS::dup_malloc, TLS::realloc"]}
{"id": "C63", "title": "ThreadEnd returns all cached memory and only that", "statement": "After any history in which the caller kept to the rules and the system did not run out of memory, TLS::ThreadEnd gives every block that is not live back to the system exactly once and leaves the live ones as they are.", "quantifier": "every number of buckets, every history of malloc/realloc/free/accesses", "why_tests_cant": "Leaks and double frees depend on the history of the cache.", "anchors": ["sync/sync_tls.cpp: TLS::ThreadEnd"]}
{"id": "C64", "title": "A failed Open leaves the File object closed", "statement": "After File::Open returns false the object is closed: reads, writes and seeks are refused and no descriptor stays open.", "quantifier": "every name, mode, sharing mode and every outcome of the system calls", "why_tests_cant": "Failures of flock and unusual sharing values.", "anchors": ["utf8/utf8_file_dir.cpp: File::Open (POSIX branch)"]}
{"id": "C65", "title": "The program's own name and directory", "statement": "GetExecutableFilename and GetExecutablePath never leave the caller's buffer; on success the buffer holds the NUL-terminated real path of the running program, respectively the directory it is in with a trailing slash, and BufferSize counts it with its terminator; on failure BufferSize is zero.", "quantifier": "every buffer size, every content of the /proc links, every file system", "why_tests_cant": "Buffer sizes near the length of the program's path; the path cannot be varied inside a test.", "anchors": ["utf8/utf8_appinfo.cpp: AppInfo::GetExecutableFilename (POSIX branch), GetExecutablePath"]}
{"id": "C66", "title": "The keyed hash is SipHash", "statement": "GetSipHashKey computes SipHash-c-d, as published by Aumasson and Bernstein, of the key bytes with the 128 bit key (Key1, Key2), on every little-endian machine; the ordered hashes use it with 2 and 4 rounds.", "quantifier": "every key of every length, every pair of key words, every number of rounds", "why_tests_cant": "A wrong shift, rotation or padding for one length class still gives a plausible hash; its protection against chosen keys rests on being exactly SipHash.", "anchors": ["templates/detachable_ordered_hash.cpp: OrderedHashUtil::GetSipHashKey", "templates/packed_ordered_hash.cpp: PackedOrderedHashUtil::GetSipHashKey"]}
{"id": "C67", "title": "Wide text in a mixed variable", "statement": "UTF8MixedVar::SetUTF8 and AppendUTF8 never write outside the variable and always leave NUL-terminated text: the UTF-8 form of the longest prefix of the given wide text that fits, after the old text in the case of AppendUTF8. ConvertFromUTF8 gives the wide text back.", "quantifier": "every variable size, every wide text of 2 or 4 byte units, every previous content, every history of calls", "why_tests_cant": "Lengths near the end of the variable, multi-byte characters at the end, invalid units.", "anchors": ["utf8/utf8_mixed_var.h: UTF8MixedVar::SetUTF8, AppendUTF8, ConvertFromUTF8"]}
{"id": "C68", "title": "Thread-local mixed variables", "statement": "Every TLS::MixedVar behaves as a value of its own: each call sets, extends or cuts its text, or sets its mode and number, exactly as its name says, the text is always NUL-terminated, copies and assignments are independent of the original, and no call changes another variable; when all variables are gone their memory is back in the thread's cache and ThreadEnd returns it to the system.", "quantifier": "every number of variables of one thread, every number of buckets, every history of construction, copying, calls and destruction", "why_tests_cant": "Aliasing between variables shows only under particular orders of growing, recycling and assigning; leaks do not fail a test.", "anchors": ["sync/sync_tls.cpp: TLS::MixedVar (except ReplaceData, ReplaceStr)", "sync/sync_tls.h: TLS::MixedVar"]}
{"id": "C69", "title": "Nobody waits for a free mutex or lock", "statement": "In every interleaving in which no system call fails: whenever all threads are either outside the Sync::Mutex (Sync::ReadWriteLock, with correctly paired calls) or blocked inside it, and one is blocked, then some thread holds the mutex (a read lock or the write lock), going by the results of its calls.", "quantifier": "every number of threads and of objects, every interleaving of calls, every time limit and time-out", "why_tests_cant": "Lost wake-ups need particular interleavings of time-outs with releases in three cooperating objects; a test that hangs once in a million runs is not noticed.", "anchors": ["sync/sync_mutex.cpp (POSIX branch)", "sync/sync_readwritelock.cpp (POSIX branch)", "sync/sync_util.cpp"]}
{"id": "C70", "title": "Timed waits end at the right moment", "statement": "A wait on a semaphore or event with a limit of Wait milliseconds gives pthread_cond_timedwait a valid time exactly Wait milliseconds after the current time; nothing overflows as long as that time can be represented.", "quantifier": "every clock reading, every Wait", "why_tests_cant": "Carries between nanoseconds and seconds show only at particular fractions of a second.", "anchors": ["sync/sync_util.cpp: WaitForUnixSemaphore, WaitForUnixEvent"]}
{"id": "C71", "title": "Time limit of the reader-writer lock", "statement": "ReadLock and WriteLock with Wait = 0 never wait, with INFINITE never give up for lack of time, and otherwise their two waits together end at the latest Wait milliseconds after the call; GetUnixMicrosecondTime counts microseconds.", "quantifier": "every Wait, every pair of clock readings", "why_tests_cant": "Elapsed times of less than a second look right in tests; measuring how long a call blocked is not a functional check.", "anchors": ["sync/sync_readwritelock.cpp: ReadLock, WriteLock (POSIX branch)", "sync/sync_util.cpp: GetUnixMicrosecondTime"]}
{"id": "C72", "title": "File operations act on the named file", "statement": "File::Delete, Chmod, Chown, Chgrp, SetFileTimes, Stat, LStat and Exists ask the system exactly once, about the named file (backslashes read as slashes), and return its answer; Chown changes the owner and nothing else, Chgrp gives the file to the group of the given name and nothing else; for a name GetPlatformFilename refuses, nothing happens and the answer is no.", "quantifier": "every name, every account and group name, every state of the file system", "why_tests_cant": "The effects depend on the account database and on rights; tests run with one account whose group has its own name.", "anchors": ["utf8/utf8_file_dir.cpp: File::Delete, Chmod, Chown, Chgrp, Stat, LStat, Exists (POSIX branch)"]}
{"id": "C73", "title": "Setting the times of a file", "statement": "File::SetFileTimes sets the access and modification times that are given exactly to the microsecond, and leaves the ones that are not given as they are.", "quantifier": "every file, every pair of given or missing times", "why_tests_cant": "File systems differ in the resolution of times; a lost fraction of a second is not noticed.", "anchors": ["utf8/utf8_file_dir.cpp: File::SetFileTimes (POSIX branch)"]}
{"id": "C74", "title": "Link targets and real paths", "statement": "File::Readlink and File::Realpath put the NUL-terminated answer of the system into the result if it fits, never write outside it, and otherwise return false. File::Symlink(Src, Dest) asks for a link Src that leads to Dest.", "quantifier": "every name, every answer of the system, every buffer size and previous content", "why_tests_cant": "Answers of exactly the buffer size, buffers with previous content.", "anchors": ["utf8/utf8_file_dir.cpp: File::Readlink, Realpath, Symlink (POSIX branch)"]}
{"id": "C75", "title": "Moving and copying files loses nothing", "statement": "After File::Move returns true the new name leads to the contents, owner, group and permissions of the old file, and the old name is gone; when it returns false the old file is unchanged. File::Copy never changes its source. Both leave every file but the destination as it is.", "quantifier": "every file system, every pair of names (also two names of one file), every behaviour of the system calls", "why_tests_cant": "Moves between file systems, full disks and failing writes are not available in a unit test.", "anchors": ["utf8/utf8_file_dir.cpp: File::Copy, Move (POSIX branch)"]}
{"id": "C76", "title": "Listing a directory", "statement": "Dir::Read gives each name of the opened directory exactly once, NUL-terminated and in the order of the system, and then false; a loop that calls Read until it returns false sees them all. It never writes outside the given buffer. Each stream that is opened is closed exactly once, at the latest when the object is destroyed or opened again, and is never used after that.", "quantifier": "every history of any number of Dir objects, every directory, every buffer size", "why_tests_cant": "Leaked or doubly closed streams do not show in a test; names longer than the buffer are rare.", "anchors": ["utf8/utf8_file_dir.cpp: Dir::Open, Read, Close, ~Dir (POSIX branch)"]}
{"id": "C77", "title": "Life of Semaphore, Event, ReadWriteLock and SharedMem", "statement": "On POSIX, whatever is constructed, created (named or not, successfully or not, repeatedly), used and destroyed in whatever order: every block of memory that Create obtains is given back exactly once and in the way it was obtained (delete or munmap of the mapped size), at the latest when the object is destroyed or created again; the pthread objects in private memory are destroyed before it is given back; nothing is touched after that; a call on an object that is not created returns false; and while an object is created it has its memory.", "quantifier": "every history of calls on any number of objects of the four classes, with every result of looking up the names, one thread; callers touch SharedMem only inside its size while it is created", "why_tests_cant": "Leaks, double releases and unmapping of the wrong length do not show in a test.", "anchors": ["sync/sync_semaphore.cpp: POSIX branch", "sync/sync_event.cpp: POSIX branch", "sync/sync_readwritelock.cpp: POSIX branch", "sync/sync_sharedmem.cpp: POSIX branch", "sync/sync_util.cpp: InitUnixNamedMem, UnmapUnixNamedMem, GetUnixSemaphore, FreeUnixSemaphore, GetUnixEvent, FreeUnixEvent"]}
{"id": "C78", "title": "What SharedMem answers", "statement": "After SharedMem::Create returned true, GetSize() is the requested size, RawData() leads to at least that many bytes, and First() is true exactly when the object made a new shared memory; when it returned false for a name, RawData() is NULL and GetSize() is 0.", "quantifier": "every history before it, every size, every result of looking up the name", "why_tests_cant": "Reuse of an object and sizes near 2^64 are not tested.", "anchors": ["sync/sync_sharedmem.cpp: SharedMem::Create, RawData, GetSize, First (POSIX branch)"]}
{"id": "C79", "title": "Life of Mutex", "statement": "On POSIX, whatever is constructed, created, locked, unlocked and destroyed in whatever order by whatever threads: the memory of each Create is given back exactly once and not used after that, a Lock of a mutex that is not created returns false, and a named mutex does not stay locked for other processes once nobody holds it.", "quantifier": "every history of calls on any number of mutexes by any threads, each call alone", "why_tests_cant": "Leaks do not show in a test, and repeated Create is not tested.", "anchors": ["sync/sync_mutex.cpp: POSIX branch"]}
{"id": "C80", "title": "Layout of the sync objects", "statement": "The parts of each sync object (pthread mutexes, condition variables, counters) and the header of named memory lie inside the memory Create asks for, do not overlap, and are aligned for their types.", "quantifier": "every platform (sizes of the pthread types, of the alignment unit and of a page), every class", "why_tests_cant": "An overlap or misalignment shows only on some platforms.", "anchors": ["sync/sync_util.cpp: AlignUnixSize, GetUnixSemaphoreSize, GetUnixSemaphore, GetUnixEventSize, GetUnixEvent, InitUnixNamedMem"]}
{"id": "C81", "title": "ReplaceData and ReplaceStr of TLS::MixedVar", "statement": "ReplaceData(src, dest) replaces the occurrences of src in the text of the variable, found from left to right without overlapping, by dest, returns their number, terminates the text, and changes nothing else: not the mode or the numbers, not the text or values of another variable; nothing is undefined, and no memory is lost.", "quantifier": "every history of operations on any number of thread-local mixed variables, every text, src and dest (shorter, equal or longer)", "why_tests_cant": "Replacing in place, growth of the result and reuse of cached blocks interact; tests take short texts.", "anchors": ["sync/sync_tls.cpp: TLS::MixedVar::ReplaceData, ReplaceStr", "templates/fast_find_replace_util.h: FastReplaceAlloc::ReplaceAll, StaticReplaceAll"]}
{"id": "C82", "title": "Storage directories on Windows", "statement": "On Windows GetSystemAppStorageDir, GetCurrentUserAppStorageDir and GetTempStorageDir never access memory outside the buffer; if they succeed the buffer holds, terminated, the UTF-8 form of the folder the system names, a backslash, and (if given) the application directory and a backslash, and BufferSize counts it with its terminator; if it does not fit or the system names no folder they fail with BufferSize 0.", "quantifier": "every folder path the system returns, every application directory, every buffer size", "why_tests_cant": "Needs system folders with unusual names and buffers of every size on a Windows machine.", "anchors": ["utf8/utf8_appinfo.cpp: GetSystemAppStorageDir, GetCurrentUserAppStorageDir, GetTempStorageDir, GetWindowsUTF8StorageDir (Windows)"]}
{"id": "C83", "title": "The program's own name on Windows", "statement": "On Windows GetExecutableFilename never accesses memory outside the buffer; if it succeeds the buffer holds, terminated, the UTF-8 form of the path of the executable and BufferSize counts it with its terminator; if the system cannot tell the path or it does not fit, it fails with BufferSize 0.", "quantifier": "every path the system returns, every buffer size", "why_tests_cant": "Needs executables in directories with unusual names and a failing system call.", "anchors": ["utf8/utf8_appinfo.cpp: GetExecutableFilename (Windows)"]}
{"id": "C84", "title": "Platform file names on Windows", "statement": "On Windows GetPlatformFilename never accesses memory outside its buffers. With slashes read as backslashes and an initial \\??\\ as \\\\?\\, it accepts exactly the non-empty UTF-8 names whose result fits in the buffer and that either are device paths (\\\\.\\ or \\\\?\\Device\\) while unsafe names are allowed, or contain after prefix and drive letter no control character and none of : * ? \" < > | and have no component that is a device name (NUL, CON, AUX, PRN, CLOCK$, LPT0-9, COM0-9, any case, with or without extension). The result is the name in the system's long form: \\\\?\\ before a drive letter, which becomes upper case, \\\\?\\UNC\\ for network paths, volumes resolved to their drive letter, other names unchanged.", "quantifier": "every name, every buffer and size, every mapping of volumes to drive letters", "why_tests_cant": "The cases are combinations of prefixes, drive letters, reserved names and buffer sizes; memory errors at particular sizes go unnoticed.", "anchors": ["utf8/utf8_file_dir.cpp: File::GetPlatformFilename (Windows)"]}
{"id": "C85", "title": "Parts of a file name on Windows", "statement": "On Windows GetPlatformFilenameInfo splits every name into prefix (\\\\?\\UNC\\ in any case, or \\\\?\\), volume or host, directory, stem and extensions, and reports the positions where they begin: the parts concatenate to the name, the volume has no backslash and ends at a backslash or the end, the directory is empty or ends with a backslash, the rest has no backslash, the stem has no dot, the extensions start with a dot and the last extension with the last dot.", "quantifier": "every zero-terminated string", "why_tests_cant": "Infinitely many names; the boundary cases are combinations of prefixes, empty components and dots.", "anchors": ["utf8/utf8_file_dir.cpp: File::GetPlatformFilenameInfo (Windows)"]}
{"id": "C86", "title": "A file on Windows behaves like a byte array with a cursor", "statement": "On Windows, for every history of Seek/Read/Write on an open file, seeks move the cursor to the requested position clamped to 0..size, reads return the bytes at the cursor (none only at the end of the file), writes replace or extend the bytes at the cursor, the cursor moves by the number of bytes transferred and reported, and an operation that returns false changes nothing; all this whatever transfers the system cuts short or refuses.", "quantifier": "every history, every offset and size, every choice of short transfers and failures by the system", "why_tests_cant": "Transfers of several gigabytes, failing and short system calls, 64-bit wrap-around at extreme offsets.", "anchors": ["utf8/utf8_file_dir.cpp: File::Seek, Read, Write, UpdateMaxPos (Windows)"]}
{"id": "C87", "title": "Opening a file on Windows", "statement": "On Windows File::Open succeeds exactly for a known access mode and sharing mode, an accepted name, and a file that exists or may be created (O_CREAT) and does not exist if O_CREAT and O_EXCL are given and that the system lets it open; then the file is empty if O_TRUNC was given or it was created and otherwise unchanged, the position is the beginning, or the end with O_APPEND, and the access mode decides what is allowed. If it fails the object is closed.", "quantifier": "every mode, every file, every outcome of the system calls", "why_tests_cant": "Combinations of flags with failures of the system calls after the file is open.", "anchors": ["utf8/utf8_file_dir.cpp: File::Open, Close (Windows)"]}
{"id": "C88", "title": "Absolute file names on Windows", "statement": "On Windows GetAbsoluteFilename never accesses memory outside its buffers. It returns true exactly if both names are accepted, the base directory (if needed: the given one or the current directory) has a volume, and the result fits; then the buffer holds the volume of the name, or that of the base directory if the name has none, followed by the components of the name resolved against the base directory (names beginning with a backslash against the root of the volume), without empty, . and .. components, with or without trailing backslash as asked.", "quantifier": "every name, base directory and current directory, every buffer and size, with and without trailing backslash", "why_tests_cant": "Infinitely many combinations of volumes, dots, backslashes, lengths and uninitialised memory.", "anchors": ["utf8/utf8_file_dir.cpp: File::GetAbsoluteFilename (Windows)"]}
{"id": "C89", "title": "Times on Windows", "statement": "On Windows SetFileTimes sets exactly the times given, to the given number of microseconds after 1 January 1970, and nothing else; Stat reports times of files as the seconds since 1 January 1970, rounded down, so that it reports what was set; a SetFileTimes that fails changes nothing. The clock reports microseconds since 1 January 1970.", "quantifier": "every accepted name, every file system, every time, every combination of times given, whatever the system refuses", "why_tests_cant": "64-bit times with wrap-around; a test sees a few dates.", "anchors": ["utf8/utf8_file_dir.cpp: File::SetFileTimes, ConvertFILETIMEToUnixTime, ConvertUnixMicrosecondTimeToFILETIME (Windows)", "environment/environment_appinfo.cpp: AppInfo::GetUnixMicrosecondTime"]}
{"id": "C90", "title": "Permissions on Windows", "statement": "On Windows a Chmod that succeeds makes the file writable if the mode gives somebody write permission and read-only otherwise, and changes nothing else; one that fails changes nothing. Stat reports the file as writable exactly if it is not read-only, as executable exactly if it is a directory or its name is that of a program, and reports its kind, size and drive.", "quantifier": "every accepted name, every mode, every file system, whatever the system refuses", "why_tests_cant": "All modes times all attribute words; a test tries the usual ones.", "anchors": ["utf8/utf8_file_dir.cpp: File::Chmod, File::Stat (Windows)"]}
{"id": "C91", "title": "Copying on Windows", "statement": "On Windows a Copy that returns true has made the destination a copy of the source with the same contents, attributes and time of last change (in microseconds), and has changed no other name or file; it works for missing, read-only and hidden destinations, and refuses to copy a file onto itself under any name. A Copy that fails leaves the source alone and leaves the destination with its attributes.", "quantifier": "every pair of accepted names, every file system, whatever the system refuses", "why_tests_cant": "All combinations of attributes, hard links, times and refusals of the system.", "anchors": ["utf8/utf8_file_dir.cpp: File::Copy, File::GetWindowsFilenameInfo (Windows)"]}
{"id": "C92", "title": "Moving on Windows", "statement": "On Windows after a Move that returns true the destination is the source file or a copy of it, the source name is gone, and no other name or file has changed. After a Move that returns false the source is as before.", "quantifier": "every pair of accepted names, every file system, whatever the system refuses", "why_tests_cant": "All combinations of attributes, hard links, existing destinations and refusals of the system.", "anchors": ["utf8/utf8_file_dir.cpp: File::Move (Windows)"]}
{"id": "C93", "title": "Deleting on Windows", "statement": "On Windows a Delete that returns true has removed the name and changed no other file or name; it works for read-only files too. A Delete that returns false has changed nothing.", "quantifier": "every accepted name, every file system, whatever the system refuses", "why_tests_cant": "All combinations of attributes, hard links and refusals of the system.", "anchors": ["utf8/utf8_file_dir.cpp: File::Delete (Windows)"]}
{"id": "C94", "title": "Names of files for the system on Windows", "statement": "On Windows Exists, Chmod, Copy, Move, Delete, Stat and SetFileTimes pass to the system exactly the UTF-16 form of the normalised name; with a name that is not accepted they return false and change nothing.", "quantifier": "every name, every operation, every file system", "why_tests_cant": "All names including non-ASCII ones and all contents of uninitialised buffers.", "anchors": ["utf8/utf8_file_dir.cpp: File::GetWindowsPlatformFilename, File::Exists (Windows)"]}
{"id": "C95", "title": "Removing directories on Windows", "statement": "On Windows a recursive Rmdir asks the system only for the removal of the directory and of what is below it, reached through directories that are not links; it never follows a link. If nothing prevents it, the directory and everything below it is gone afterwards, nothing else has changed, and the answer is true. Without recursion only the removal of the directory itself is asked for. No memory is misused.", "quantifier": "every accepted name and current directory, every directory tree, every behaviour of the file system", "why_tests_cant": "All trees, links at every place, all answers of the system, changes made by others meanwhile.", "anchors": ["utf8/utf8_file_dir.cpp: Dir::Rmdir, Dir::Rmdir_RecurseInternal (Windows)"]}
{"id": "C96", "title": "Creating directories on Windows", "statement": "On Windows a recursive Mkdir asks the system to create every ancestor of the absolute path from the top down and then the directory itself, nothing else; without recursion only the directory itself. The answer is that of the last request. If no ancestor is a file the directory exists afterwards, true is returned exactly if it did not exist before, and nothing that existed is lost.", "quantifier": "every accepted name and current directory, every directory tree, every behaviour of the file system", "why_tests_cant": "All depths, volumes and shares, all sets of ancestors that exist already.", "anchors": ["utf8/utf8_file_dir.cpp: Dir::Mkdir (Windows)"]}
{"id": "C97", "title": "The current directory on Windows", "statement": "On Windows Getcwd writes the current directory in UTF-8, in the form for the system, into the buffer and returns true, or returns false if it does not fit. It never writes outside the buffer and never reads memory that was not written.", "quantifier": "every current directory, every buffer and size, every content of the local buffers", "why_tests_cant": "All directory names including non-ASCII, very long and ill-formed ones.", "anchors": ["utf8/utf8_file_dir.cpp: Dir::Getcwd (Windows)"]}
{"id": "C98", "title": "Listing a directory on Windows", "statement": "On Windows, after a successful Open, Read gives every name of the directory once, in the order of the system, in UTF-8 and terminated, and then false; a name that does not fit the buffer is not given. Open asks the system for the entries of the directory named. Close tells whether the object was open. Any number of objects can be used and reused in any order; every search handle is closed exactly once, and no call writes outside the buffer.", "quantifier": "every history of calls on any number of Dir objects, every directory, every name (also ill-formed UTF-16), every buffer size", "why_tests_cant": "All interleavings of calls on many objects, all names and buffer sizes.", "anchors": ["utf8/utf8_file_dir.cpp: Dir::Open, Dir::Read, Dir::Close (Windows)"]}
{"id": "C99", "title": "Reader-writer lock exclusion on Windows", "statement": "On Windows, in every interleaving of correctly paired calls, whatever system calls fail or time out, a Sync::ReadWriteLock behaves as an atomic reader-writer lock: a writer never overlaps another writer or any reader, and a lock call has taken effect, between call and return, if and only if it returns true.", "quantifier": "every number of threads and readers, every interleaving, every failure and time-out of a system call", "why_tests_cant": "Schedules and failures; the lock combines three semaphores and an event in several non-atomic steps.", "anchors": ["sync/sync_readwritelock.cpp: ReadLock, WriteLock, ReadUnlock, WriteUnlock (Windows)"]}
{"id": "C100", "title": "Nobody waits for a free reader-writer lock on Windows", "statement": "On Windows, in every interleaving of correctly paired calls in which waits may time out but no other system call than ResetEvent fails: whenever fewer than 2^31 - 1 readers are inside and all threads are either outside the Sync::ReadWriteLock or blocked inside it, and one is blocked, then some thread holds a read lock or the write lock, going by the results of its calls.", "quantifier": "every number of threads, every interleaving, every time limit and time-out", "why_tests_cant": "Lost wake-ups need particular interleavings of time-outs with releases in four kernel objects.", "anchors": ["sync/sync_readwritelock.cpp: ReadLock, WriteLock, ReadUnlock, WriteUnlock (Windows)"]}
{"id": "C101", "title": "Mutex exclusion and re-entrance on Windows", "statement": "On Windows, in every interleaving of Lock and Unlock calls of any threads through any number of Sync::Mutex objects of one mutex, whatever system calls fail or time out, if no thread nests its locks 2^32 - 1 deep and no thread ends while it holds the mutex: at most one thread holds the mutex; a lock call has taken effect, between call and return, if and only if it returns true; the holder can lock again at once through any object; Unlock by a thread that does not hold it through that object returns false and changes nothing; and while a thread holds it, Lock(0) of another thread returns false.", "quantifier": "every number of threads and objects, every interleaving, every failure and time-out of a system call", "why_tests_cant": "Schedules and failures; the object keeps its own owner and count beside the kernel mutex and updates them in separate steps.", "anchors": ["sync/sync_mutex.cpp: Lock, Unlock (Windows)"]}
{"id": "C102", "title": "A mutex survives the end of its holder on Windows", "statement": "On Windows, when a thread ends while it holds a Sync::Mutex, another thread can take the mutex over: its next Lock succeeds, and afterwards the mutex excludes as before.", "quantifier": "every state of a mutex whose holder has ended", "why_tests_cant": "Needs a thread to end at the right moment, and reuse of thread ids by the system.", "anchors": ["sync/sync_mutex.cpp: Lock (Windows)"]}
{"id": "C103", "title": "Nobody waits for a free mutex on Windows", "statement": "On Windows, in every interleaving in which waits may time out or fail but no ReleaseMutex fails, no thread ends while it holds the mutex and no thread nests its locks 2^32 - 1 deep: whenever all threads are either outside the Sync::Mutex calls or blocked inside them, and one is blocked, some thread holds the mutex, going by the results of its calls.", "quantifier": "every number of threads and objects, every interleaving, every time limit and time-out", "why_tests_cant": "Lost wake-ups need particular interleavings.", "anchors": ["sync/sync_mutex.cpp: Lock, Unlock (Windows)"]}
{"id": "C104", "title": "Lives of semaphores, events and reader-writer locks on Windows", "statement": "On Windows, for every history of constructing, creating, creating again, using and destroying sync objects, whatever system calls fail: every kernel handle a Sync::Semaphore, Sync::Event or Sync::ReadWriteLock stores is open, no handle is stored twice or closed twice, every handle such an object opened is stored in one place until it is closed, and when all objects are destroyed none of those handles is open; no memory block is lost unless SharedMem::Create is called; an object whose last Create succeeded has all its kernel objects; and the calls of a Semaphore or Event whose last Create failed (or that was never created) return false and change nothing.", "quantifier": "every history of any number of objects, every name, every pattern of failing system calls", "why_tests_cant": "Failure of each of up to four system calls in one Create, repeated Create and interleaved lives; leaks are not visible to a test.", "anchors": ["sync/sync_semaphore.cpp", "sync/sync_event.cpp", "sync/sync_readwritelock.cpp: constructors, Create, destructors (Windows)"]}
{"id": "C105", "title": "Lives of mutexes on Windows", "statement": "On Windows, for every history of sync objects, every kernel handle a Sync::Mutex opens is closed when it is destroyed or created again, so that nothing is open when all objects are destroyed.", "quantifier": "every history of any number of objects, every pattern of failing system calls", "why_tests_cant": "Leaks are not visible to a test.", "anchors": ["sync/sync_mutex.cpp: constructor, Create, Lock, Unlock, destructor (Windows)"]}
{"id": "C106", "title": "Shared memory on Windows", "statement": "On Windows, for every history of sync objects and every size: after SharedMem::Create returned true the memory has at least Size bytes and GetSize returns Size; two such objects have the same memory if and only if they have the same name and size; for each memory there is exactly one object that is First among those that have it while the first one lives; after a failed Create GetSize does not report memory that is gone; and when all objects are destroyed no view, handle or memory block is left.", "quantifier": "every size_t, every name, every history and pattern of failing system calls", "why_tests_cant": "Sizes of 4 GB and more, and failures of single system calls inside Create.", "anchors": ["sync/sync_sharedmem.cpp: constructor, Create, destructor (Windows)"]}
{"id": "C107", "title": "Names of sync objects on Windows", "statement": "On Windows, two created sync objects use the same kernel object if and only if they are of the same class and were created under the same name (for SharedMem also the same size); a Semaphore or Event created under a name in use keeps the count, maximum, mode and state it has, and otherwise starts as asked for; and Create succeeds for every name whenever the system calls do and, for a Semaphore, the count is positive.", "quantifier": "every history, every pair of objects, every name", "why_tests_cant": "All pairs of names, and histories in which the last object of a name goes and the name is used again.", "anchors": ["sync/sync_semaphore.cpp", "sync/sync_event.cpp", "sync/sync_readwritelock.cpp", "sync/sync_mutex.cpp", "sync/sync_sharedmem.cpp: Create (Windows)"]}
{"id": "C108", "title": "Using semaphores and events on Windows", "statement": "On Windows, in every history of sync objects: a semaphore's count is at all times the count it began with, less the successful Locks, plus the successful Unlocks, through all objects of its name, and never passes the maximum; Lock succeeds if and only if the count is positive and the wait does not fail; Unlock succeeds if and only if the count is below the maximum and the call does not fail, and reports the count before; an event is signalled exactly as the successful Fires, Resets and Waits through all its objects leave it; Wait succeeds if and only if it is signalled and the wait does not fail; each Fire of an automatic event lets at most one Wait through; a manual event stays signalled until reset.", "quantifier": "every history of calls without waiting (Wait = 0) through any number of objects, every pattern of failing system calls", "why_tests_cant": "All histories and failures; creating and destroying other objects in between.", "anchors": ["sync/sync_semaphore.cpp: Lock, Unlock", "sync/sync_event.cpp: Wait, Fire, Reset (Windows)"]}
{"id": "C109", "title": "A reader-writer lock that was not created refuses on Windows", "statement": "On Windows, ReadLock, WriteLock, ReadUnlock and WriteUnlock of a Sync::ReadWriteLock whose last Create failed return false without touching any kernel object, and none is refused for that reason after Create succeeded.", "quantifier": "every history of sync objects, every pattern of failing system calls", "why_tests_cant": "Needs the failure of a particular one of the four system calls in Create.", "anchors": ["sync/sync_readwritelock.cpp: Create, ReadLock, WriteLock, ReadUnlock, WriteUnlock (Windows)"]}
{"id": "C110", "title": "Readlink gives the target of a link on Windows", "statement": "On Windows, File::Readlink of a symbolic link or mount point returns true exactly if the target stored in the link, in UTF-8, fits the buffer with its terminator, and then the buffer holds it; for anything else it returns false and writes nothing; it never writes past the given size and never reads past its own buffers.", "quantifier": "every name in the form of C84, every reparse point the system can store, every buffer size", "why_tests_cant": "Needs links with long targets and with the different layouts Windows uses for symbolic links and mount points.", "anchors": ["utf8/utf8_file_dir.cpp: File::Readlink (Windows)"]}
{"id": "C111", "title": "Symlink makes the link asked for on Windows", "statement": "On Windows, File::Symlink makes a link at Src that leads to Dest as given, if Dest, seen from the directory that holds the link, exists, and marks it as a link to a directory exactly if Dest is one; otherwise it returns false and makes nothing.", "quantifier": "every pair of names in the form of C84 and C88, every state of the file system", "why_tests_cant": "Needs privileges on Windows and all combinations of relative and absolute names.", "anchors": ["utf8/utf8_file_dir.cpp: File::Symlink (Windows)"]}
{"id": "C112", "title": "Realpath gives the real name of a file on Windows", "statement": "On Windows, File::Realpath of a full name gives the name in which every component is replaced by the name of the entry found under it, links are replaced by their targets (at most twenty), and components that are not found stay; it returns true exactly if this name fits the buffer and exists, and writes nothing outside the buffer and its own arrays.", "quantifier": "every full name in the form of C84, every state of the file system with links of the layouts Windows stores, every buffer size", "why_tests_cant": "Needs short names, links of all kinds and names near the limit on a Windows file system.", "anchors": ["utf8/utf8_file_dir.cpp: File::Realpath (Windows)"]}
{"id": "C113", "title": "GetBucketInfo describes the cache of the thread-local allocator", "statement": "TLS::GetBucketInfo succeeds exactly for the buckets of an initialised thread. Nodes is the number of requests of the bucket's sizes that are answered without the system; all Nodes together are the blocks got from the system that are neither live nor given back, and all Sizes together are the bytes of these blocks.", "quantifier": "every number of buckets, every history of malloc/realloc/free/accesses in which the caller kept to the rules", "why_tests_cant": "The cache depends on the whole history; the memory behind it cannot be seen from outside.", "anchors": ["sync/sync_tls.cpp: TLS::GetBucketInfo, malloc, free"]}
{"id": "C114", "title": "Time limit of the reader-writer lock on Windows", "statement": "On Windows, ReadLock and WriteLock with Wait = 0 never wait, and with INFINITE they return false only if a system call fails. With any other limit they return at the latest Wait milliseconds after the call, and if no system call fails they return false only when that time is over.", "quantifier": "every Wait, every length and result of the waits, every behaviour of the system clock", "why_tests_cant": "Elapsed times of less than a second look right in tests; setting the clock during a wait is not tested.", "anchors": ["sync/sync_readwritelock.cpp: ReadLock, WriteLock (Windows branch)"]}
{"id": "C115", "title": "The time since 1970 on Windows", "statement": "On Windows, GetUnixMicrosecondTime returns the number of whole microseconds since the beginning of 1970, for every time of the system clock from then on.", "quantifier": "every FILETIME from 1970 on", "why_tests_cant": "A test sees only the current time.", "anchors": ["sync/sync_util.cpp: GetUnixMicrosecondTime (Windows)", "environment/environment_appinfo.cpp: GetUnixMicrosecondTime (Windows)"]}
{"id": "C116", "title": "Random bytes on Windows", "statement": "On Windows, CSPRNG::GetBytes returns true only if all Size bytes of the destination were produced by the system's generator, and false, with the destination unchanged, if the generator cannot be found or refuses; GetInteger, if it returns true, gives a value of the range made only from generated bytes, and returns false as soon as the generator refuses.", "quantifier": "every Size, every outcome of loading the generator and of its calls, every pair of bounds", "why_tests_cant": "Requests of 4 GiB and missing system libraries are not part of any test run.", "anchors": ["security/security_csprng.cpp: CSPRNG (Windows branch), GetInteger"]}
{"id": "C117", "title": "Lives of shared libraries", "statement": "In every program that calls a FunctionUtil only while its ModuleUtil lives, whatever the loader answers: no call jumps into a library that is not loaded; each ModuleUtil opens its library at most once, keeps it loaded while it lives and closes it exactly when it is destroyed; and once all ModuleUtils are destroyed a library is loaded exactly as often as CallOnce and CallOnceVoid opened it.", "quantifier": "every history of any number of modules, functions, one-shot calls and destructions, every behaviour of the loader, POSIX and Windows", "why_tests_cant": "A reference count that is off by one is seen only when some other part of the program unloads the same library.", "anchors": ["templates/shared_lib.h: ModuleUtil, FunctionUtil", "templates/shared_lib_util.h"]}
{"id": "C118", "title": "Searching UTF-8 text", "statement": "On every valid UTF-8 text, Util::FindCodePoint returns true exactly if the code point occurs (unless combining marks are allowed: not followed by one and not one itself), leaving the position of the first such occurrence; repeated calls of Util::NextASCIICodePoint deliver exactly the ASCII characters not followed by a combining mark, in order; both return after finitely many steps.", "quantifier": "every valid UTF-8 text, every code point, both settings of AllowCombiningCodePoints", "why_tests_cant": "Tests look for ASCII letters in short ASCII strings; the wrong cases need code points above 127 or combining marks.", "anchors": ["utf8/utf8_util.cpp: Util::FindCodePoint, Util::NextASCIICodePoint, Util::NextCodePoint"]}
{"id": "C119", "title": "Replacing by hand with a FastReplace object", "statement": "A caller that loops over FastReplace::FindNext and at each match either calls Replace, with any text and any number of following elements to drop, or leaves the match alone, gets exactly the data edited that way. In every program using one object, every block is freed exactly once by the object or handed out exactly once by DetachData, nothing freed is used, and after the destructor only blocks handed out remain.", "quantifier": "every data, pattern, growth size, extra allocation and choice at each match; every sequence of calls in which FindNext follows SetData and Replace follows a match", "why_tests_cant": "The decisions of the caller multiply with the number of matches; leaks and double frees show only in particular orders of calls.", "anchors": ["templates/fast_find_replace_util.h: FastReplace (constructor, destructor, SetPattern, SetData, FindNext, Replace, DetachData)"]}
{"id": "C120", "title": "A packed ordered hash gives back what it takes", "statement": "In every history of PackedOrderedHash calls, each value is constructed once and destroyed once, each copy of a string key and each array is freed exactly once, no freed or destroyed thing is used, and after the destructor neither a value nor a block of memory is left. While the table lives it holds one value per entry and one block per string key besides its array.", "quantifier": "every finite history of Set, Unset, Find, ResizeHash, Optimize, AutoResizeHash, followed by the destructor; every hash function", "why_tests_cant": "Nodes are moved by memcpy during growth and compaction; a double free or leak depends on the pattern of holes and on when the table grew.", "anchors": ["templates/packed_ordered_hash_util.h: destructor, Set, Unset, InternalResizeHash, operator="]}
{"id": "C121", "title": "Threads sharing one TLS allocator do not notice each other", "statement": "When several threads use one TLS object and each calls ThreadInit, malloc, realloc, free and ThreadEnd with its own blocks only, every call behaves as if the thread were alone: a block handed out is in use in no thread, a thread reads what it has written itself, nothing is undefined, a thread that has not called ThreadInit (or has called ThreadEnd) gets NULL, and when all threads have ended the system has all its memory back.", "quantifier": "every interleaving of calls by any number of threads, each with its own number of buckets; every success or failure of the system's thread-specific storage and of malloc", "why_tests_cant": "Interference between caches of different threads shows only in particular interleavings and reuse patterns.", "anchors": ["sync/sync_tls.cpp: ThreadInit, malloc, realloc, free, ThreadEnd, SetMainPtr, GetMainPtr"]}
{"id": "C122", "title": "A random generator has its own device and gives it back", "statement": "A CSPRNG object reads only from the device it opened itself: /dev/random if it was asked to be safe, otherwise /dev/arandom or, failing that, /dev/urandom. If none could be opened, GetBytes refuses at once and leaves the buffer alone. Each object uses one descriptor of its own, the destructor closes exactly that one, and the files of the rest of the program are neither read nor closed.", "quantifier": "every interleaved history of any number of objects and of files opened and closed by the program; every choice of unused descriptors and every failure of open", "why_tests_cant": "Descriptors are small numbers that are used again: closing or reading the wrong one shows only in particular interleavings.", "anchors": ["security/security_csprng.cpp: constructor, destructor, GetBytes"]}
{"id": "C123", "title": "Scope guards give back exactly what was taken", "statement": "Code that takes a lock only in the form 'if (x.Lock(Wait)) { AutoUnlock guard(&x); ... }' (Mutex, Semaphore, ReadWriteLock with AutoReadUnlock and AutoWriteUnlock) unlocks every lock it got exactly once, in the reverse order, however the blocks are left: at their end, by break, by return or by an exception. It never unlocks anything else. When it has ended it holds nothing: a mutex has been unlocked as often as it was locked (but for unlocks that failed), and threads that use a reader-writer lock only in this form exclude each other without any further care.", "quantifier": "every program of nested blocks, branches, loops and early exits, any results of the calls; for the reader-writer lock any number of threads, every interleaving and every failure, while fewer than 2^32 - 1 readers are inside (C37)", "why_tests_cant": "The number of ways out of nested blocks times the results of the calls times the interleavings is unbounded.", "anchors": ["sync/sync_mutex.cpp: Mutex::AutoUnlock", "sync/sync_semaphore.cpp: Semaphore::AutoUnlock", "sync/sync_readwritelock.cpp: ReadWriteLock::AutoReadUnlock, AutoWriteUnlock"]}
{"id": "C124", "title": "A wait gives up only for a reason", "statement": "If no system call made by the calling thread fails, Semaphore::Wait (Lock) and Event::Wait return false only in these cases: with a time limit other than 0 and INFINITE, after the limit was reached; with the limit 0, if at some moment of the call the semaphore had no free unit, or the event was not signalled or (automatic event) others were already waiting for it. With INFINITE they never return false. What the other threads do meanwhile, and in which order, does not matter.", "quantifier": "every initial state, any number of threads, every interleaving, every time limit, any failures of system calls of other threads", "why_tests_cant": "A spurious failure needs a particular interleaving; tests run the few interleavings the scheduler produces.", "anchors": ["sync/sync_util.cpp: Util::WaitForUnixSemaphore, WaitForUnixEvent, ReleaseUnixSemaphore, FireUnixEvent", "sync/sync_semaphore.cpp: Semaphore::Wait", "sync/sync_event.cpp: Event::Wait"]}
{"id": "C125", "title": "A position in a packed ordered hash is a cursor, also while the hash changes", "statement": "A caller that holds one variable Pos, started with GetNextPos(), and moves it with Next, Prev and Find(Key, Pos), reads, changes and unsets the entry it is on (Get(Pos), Unset(Get(Pos))), and sets and unsets other keys in between, sees exactly what a cursor in the ordered list of entries shows: unsetting an entry leaves the position between its neighbours, a new entry comes last. Going once through the hash with Next (or Prev) until it returns NULL visits every key that is present all the time exactly once, in order (in reverse order), whatever other keys are added and unset on the way. In particular the loop that unsets some of the entries while it goes through the hash sees every entry and leaves exactly the others. The restriction in the quantifier cannot be dropped: adding a key to a full array with empty places packs the array, and the iteration then misses a key that was present all the time.", "quantifier": "every hash function, initial size up to 2^30, history, sequence of actions, fewer than 966,367,642 keys; a new key is added only if GetNextPos() < GetHashSize() or GetSize() = GetNextPos(), and ResizeHash, Optimize and AutoResizeHash are called only if GetSize() = GetNextPos()", "why_tests_cant": "Whether a modification during an iteration skips or repeats an entry depends on where the holes are, when the array is packed and where the position is; tests iterate over small unmodified tables.", "anchors": ["templates/packed_ordered_hash_util.h: Next, Prev, Get, Find with Pos, Set, Unset, ResizeHash, Optimize, AutoResizeHash, GetNextPos"]}
{"id": "C126", "title": "A packed ordered hash changes the size of its table by the documented rules", "statement": "AutoResizeHash() follows the rules in the comment above it and never changes an entry: with less than 40 % of the places in use (and more than 512 places left to keep) it makes the table smaller; otherwise, with less than 90 % in use, it packs the array, keeps the size and returns true; otherwise it doubles the table if GetNextPos() = GetHashSize() and returns true, and else does nothing and returns false. ShouldOptimize() returns true exactly if less than 50 % of the places are in use and GetNextPos() is beyond 75 % of them, and never right after Optimize(). The table stays proportional to its use: after any history 9 * GetHashSize() is at most 20 times the largest of 1, the initial size, the sizes given to ResizeHash and the largest number of keys present at one time.", "quantifier": "every hash function, initial size up to 2^30, history with sizes up to 2^30 and fewer than 966,367,642 keys", "why_tests_cant": "The thresholds are integer divisions of a power of two combined with the order of three tests; a test looks at entries, not at the size, and a rule that never fires is invisible to it.", "anchors": ["templates/packed_ordered_hash_util.h: AutoResizeHash, InternalResizeHash, ResizeHash, ShouldOptimize, Optimize, GetHashSize, GetNextPos, GetSize"]}
{"id": "C127", "title": "The table of a detachable ordered hash follows the number of nodes", "statement": "Ten times GetListSize() is at most 21 times GetHashSize(), so a bucket holds 2.1 nodes on average at most and lookups do not degrade while the hash grows; and GetHashSize() is at most the largest of the initial size, the sizes given to ResizeHash and the largest number of nodes there ever was, so the table does not outgrow its use. The restriction on ResizeHash in the quantifier is needed for the first half: after ResizeHash(1) with two nodes or more the next new key gets a table of three slots only.", "quantifier": "every hash function, initial size of at least 1, legal history of any length and arguments; for the first half ResizeHash is called with 0 or at least the current number of nodes, and there are at most 3,221,225,472 nodes", "why_tests_cant": "The growth points come from a list of 31 primes and a cached position in it that every insertion, ResizeHash and the constructor must keep in step; a test that fills one table cannot see a prime that is wrong by one, or a growth that is one insertion late.", "anchors": ["templates/detachable_ordered_hash_util.h: InsertBefore, InsertAfter, ResizeHash, GetHashSize, GetListSize", "templates/detachable_ordered_hash.cpp: Primes"]}
{"id": "C128", "title": "Nodes of a detachable ordered hash own their string keys, and the hash owns its nodes", "statement": "Every private copy of a string key made by CreateNode, SetStrKey(..., true), the copy constructor or operator= of a node is freed exactly once, at the latest when its node is deleted: at every moment as many key buffers are allocated as there are nodes with a copied key, none if all nodes are deleted; the caller's own buffers are never freed or written, and every node shows the key it was given last. A key stored with CopyStr = false is only borrowed. The calls excluded in the quantifier cannot be admitted: each of them frees or overwrites the caller's buffer, or loses a copy for good, after every history. The destructor of the hash deletes exactly the nodes in the hash and leaves detached nodes to the caller.", "quantifier": "every content of the caller's memory, history of node calls of any length and arguments in which a borrowed key is given up by SetStrKey(NULL, 0, false), another SetStrKey(..., false) or SetIntKey(..., false) before its node gets another kind of key, is assigned to or is deleted, and a copied key is not replaced by SetStrKey(..., false) or SetIntKey(..., false); for the destructor every hash function, initial size of at least 1 and legal history", "why_tests_cant": "A leak or a double free does not show in what the calls return, and the ownership of StrKey is not recorded in the node: whether delete[] is right depends on which of five calls set the key last, in any order of calls.", "anchors": ["templates/detachable_ordered_hash.h: OrderedHashNode, ~OrderedHashNode, operator=, SetIntKey, SetStrKey", "templates/detachable_ordered_hash_util.h: CreateNode, ~OrderedHash, Empty"]}
{"id": "C129", "title": "Nodes move between detachable ordered hashes", "statement": "Nodes taken out of one detachable ordered hash can be put into another one that has other hash keys and another table size. As long as a node is taken out with ResetHashKey (or gets a new key) before it is offered to a hash with other hash keys, every call on every hash does what it does for a hash on its own: the order of each hash, its size and what Find finds in it are those of its own nodes, no call on one hash changes another, and a node is in at most one hash at a time. In particular Detach(Node, true) on one hash followed by Push(Node) on another one that lacks its key always succeeds, and the node is found in the second and no longer in the first. ResetHashKey is needed: whenever the hash values differ, a string-keyed node moved without it is in the list of the second hash but not found there, and its key can be inserted again; the same happens to a node that another hash has only refused.", "quantifier": "any number of hashes, every family of hash functions, assignment of hash keys, initial sizes of at least 1, and every history of calls of any length on hashes and nodes in which a loose node whose cached hash value was made for one hash is only given to hashes with the same hash keys, and otherwise each call is legal: it names nodes that are loose or in the hash it is made on, only loose nodes are deleted or get another key, and nodes left over by Empty(false) are not inserted at NULL; for the two failures every string key and hash functions that give different values, the first not 0", "why_tests_cant": "A unit test uses one hash at a time, and with the default hash keys all hashes agree. The cached HashKey is invisible, survives Detach and even a refused insertion, and a wrong one only shows as a failed Find in another hash, if the buckets or values differ.", "anchors": ["templates/detachable_ordered_hash_util.h: Push, Pop, Shift, Unshift, InsertBefore, InsertAfter, Detach, Empty, Find, ResizeHash", "templates/detachable_ordered_hash.h: OrderedHashNode, SetIntKey, SetStrKey"]}
{"id": "C130", "title": "AutoFree gives back its block exactly once", "statement": "A block got from the thread-local allocator and put under a TLS::AutoFree guard is in use as long as the guard exists, also its contents, and is freed exactly once when the block of code that declares the guard is left, whichever way (end, break, return, exception; several blocks at once, innermost first). No two guards have the same block. When the program has left all its blocks of code, the only blocks in use are those got without a guard, and ThreadEnd returns all other memory to the system. The two rules for guards are needed: a guard that is destroyed after ThreadEnd never gives its block back, and a guarded block that is reallocated and moves is freed twice.", "quantifier": "every program of nested blocks, branches, loops and early exits with guards, every execution of it (conditions and other calls decided from outside), at most 31 buckets or sizes of at most 2^31, sizes of at most 2^63, and calls within the rules of C40: pointers in use or NULL, accesses inside the block, memory from the system for realloc and for sizes beyond the buckets; the program does not itself free or reallocate a guarded block", "why_tests_cant": "Programs, nestings and ways to leave them are unbounded, and a block that is freed twice or not at all shows only later, when the cache hands it out twice or memory runs out.", "anchors": ["sync/sync_tls.cpp: TLS::AutoFree, free, malloc, ThreadEnd", "sync/sync_tls.h: AutoFree"]}
{"id": "C131", "title": "Looping over a detachable list or ordered hash while changing it", "statement": "A node pointer is a cursor: for every node of a list or ordered hash, Next()/NextList() and Prev()/PrevList() are its neighbours in the present order (NULL at the ends), whatever was inserted, removed or resized before. A loop in either direction that reads the next node before doing anything with the current one may remove, detach, move or re-insert the current node, change its value, insert and remove nodes it has passed, resize the table and change other lists: it ends and visits exactly the nodes that were there when it began, each once and in order. Removing the nodes that fail a test leaves exactly the others in order, frees the rest and leaves other lists alone; moving them to another list splits the list in two with all values kept. The order of the two steps matters: asking a removed node for the next one reads freed memory.", "quantifier": "every legal history of calls (as in C14 and C18, any number of lists, every hash function, initial table size at least 1), every list, both directions, every loop body made of legal calls that leave the nodes still to be visited in place, and every test", "why_tests_cant": "Histories, loop bodies and lengths are unbounded, and a stale link shows only in the interplay of one particular removal with a later step of the loop.", "anchors": ["templates/detachable_list.h: Next, Prev", "templates/detachable_list_util.h: First, Last, Remove, Detach, InsertBefore, InsertAfter", "templates/detachable_ordered_hash.h: NextList, PrevList", "templates/detachable_ordered_hash_util.h: FirstList, LastList, Remove, Detach, InsertBefore, InsertAfter, ResizeHash"]}
{"id": "C132", "title": "The synchronisation objects have no data races", "statement": "Whatever threads call on a semaphore, event, mutex or read-write lock, and whichever system calls inside fail or time out, two threads are never at the same moment about to access the same variable of the object (MxCount, MxMax, MxManual, MxSignaled, MxWaiting, MxOwnerID, MxRCount) with at least one of them writing. In particular ResetUnixEvent may read MxManual without the lock. So the objects are free of undefined behaviour by races in the sense of C++.", "quantifier": "every number of threads and objects, every sequence of calls (also unlocks that do not belong to a lock), every interleaving of the single memory accesses, spurious wake-ups and every failure; POSIX objects and the Windows mutex (the other Windows objects have no variables of their own)", "why_tests_cant": "A race is a property of all interleavings and does not show in the result of a run; race detectors see only the executions they are given.", "anchors": ["sync/sync_util.cpp: WaitForUnixSemaphore, ReleaseUnixSemaphore, WaitForUnixEvent, FireUnixEvent, ResetUnixEvent", "sync/sync_mutex.cpp: Lock, Unlock", "sync/sync_readwritelock.cpp: ReadLock, WriteLock, ReadUnlock, WriteUnlock"]}
{"id": "C133", "title": "Readers cannot starve a waiting writer", "statement": "ReadWriteLock, POSIX: from the moment at which a thread waits in WriteLock, no ReadLock called later lets its thread in before the writer got the lock or gave up waiting (the comments of the code promise that readers cannot starve the writer). So a writer waits only for the readers that were there before it.", "quantifier": "every number of threads, all sequences of paired calls, every interleaving of the steps inside the semaphores and the event, every time limit, spurious wake-ups, time-outs and failures", "why_tests_cant": "Whether some schedule lets readers overtake a writer again and again is a statement about infinitely many executions; a test sees one schedule and a finite number of rounds.", "anchors": ["sync/sync_readwritelock.cpp: ReadLock, WriteLock", "sync/sync_util.cpp: WaitForUnixSemaphore, ReleaseUnixSemaphore"]}
{"id": "C134", "title": "Calls on the synchronisation objects neither spin nor deadlock", "statement": "Semaphore, Event, Mutex and ReadWriteLock, POSIX: (a) a thread makes at most 7 steps (semaphore and event), 16 steps (Mutex) or 34 steps (ReadWriteLock) for each call, plus 2 for each time it is put to sleep on a condition variable, so it cannot spin; (b) whenever a thread is inside a call and not asleep, it can make its next step, or another thread that holds one of the internal pthread mutexes can make its next step, so the internal locks never deadlock.", "quantifier": "every number of threads, every sequence of calls (paired or not) and every interleaving of their steps, every time limit, spurious wake-ups, time-outs and failing system calls", "why_tests_cant": "A deadlock or endless loop of the internal locks may need one particular interleaving out of infinitely many; a test that hangs shows one, a test that passes shows nothing about the others.", "anchors": ["sync/sync_util.cpp: WaitForUnixSemaphore, ReleaseUnixSemaphore, WaitForUnixEvent, FireUnixEvent, ResetUnixEvent", "sync/sync_mutex.cpp: Lock, Unlock", "sync/sync_readwritelock.cpp: ReadLock, WriteLock, ReadUnlock, WriteUnlock"]}
{"id": "C135", "title": "Data protected by a Mutex loses no update", "statement": "Threads that do `if (Mutex.Lock(Wait)) { load the data; store what they compute from it; ... Mutex.Unlock(); }` lose no update: at every moment the shared data is what the stores made so far give one after the other, a thread that has loaded the data and not yet stored has loaded what the data still is, and at most one thread is inside. POSIX and Windows.", "quantifier": "every number of threads and of Mutex objects of the same mutex, every data type and every function a thread computes, every time limit, every interleaving of loads, stores and the steps inside the library, every failing or timing-out call (a thread whose Lock fails stays outside, one whose Unlock fails stays inside); threads end only outside; loads and stores are sequentially consistent", "why_tests_cant": "A lost update needs one particular interleaving of two threads inside the library and outside of it; a stress test that counts correctly has met only a few of them.", "anchors": ["sync/sync_mutex.cpp: Lock, Unlock (both platforms)", "sync/sync_util.cpp: WaitForUnixSemaphore, ReleaseUnixSemaphore"]}
{"id": "C136", "title": "Data protected by a ReadWriteLock is read whole and loses no update", "statement": "Threads that read the data under ReadLock and change it step by step under WriteLock: at every moment the data is what the stores made so far give one after the other; what a writer has loaded is what the data still is; and everything a reader has seen since its ReadLock returned true is one and the same value, namely the data as it was when WriteUnlock was last called, never a half-finished update. POSIX and Windows.", "quantifier": "every number of threads (on POSIX as long as fewer than 2^32 - 1 readers are inside at once), every data type and every function a writer computes, every time limit, every interleaving of loads, stores and the steps inside the library, every failing or timing-out call (a thread whose lock call fails stays outside, one whose unlock call fails does not use the lock again); loads and stores are sequentially consistent", "why_tests_cant": "A torn read needs a reader between two stores of a writer, through one of the interleavings inside the library; no finite number of runs excludes it.", "anchors": ["sync/sync_readwritelock.cpp: ReadLock, WriteLock, ReadUnlock, WriteUnlock (both platforms)"]}
{"id": "C137", "title": "A Semaphore never lets more threads in than it has units", "statement": "Threads that do `if (Semaphore.Lock(Wait)) { ... Semaphore.Unlock(); }` on a semaphore created with initial value n (POSIX and Windows): at every moment at most n threads are between a Lock that has returned true and their call of Unlock.", "quantifier": "every n, every number of threads, every time limit, every interleaving of their steps inside the library, spurious wake-ups, every failing or timing-out system call, also a release that fails without being reported", "why_tests_cant": "One thread too many needs a particular interleaving or a failing call at a particular moment; a test sees a few schedules with a few threads.", "anchors": ["sync/sync_semaphore.cpp: Create, Lock, Unlock", "sync/sync_util.cpp: WaitForUnixSemaphore, ReleaseUnixSemaphore"]}
{"id": "C138", "title": "A ring buffer with two semaphores hands over every item once and in order", "statement": "A producer and a consumer with n slots and two POSIX semaphores, `empty` with n of n units and `full` with 0 of n (producer: wait for empty, fill slot i mod n, release full until that succeeds; consumer: wait for full, read slot j mod n, release empty until that succeeds): what the consumer has read is at every moment the first items of the producer, in order and each once; no slot is filled while its item has not been read, none is read before it is filled; never more than n items are in the buffer.", "quantifier": "every n, every sequence of items, every time limit, every interleaving of the steps of both threads inside and outside the library, spurious wake-ups, every failing or timing-out call", "why_tests_cant": "An overwritten or repeated item needs one particular interleaving, and only shows after the indices have wrapped in the wrong moment.", "anchors": ["sync/sync_util.cpp: InitUnixSemaphore, WaitForUnixSemaphore, ReleaseUnixSemaphore"]}
{"id": "C139", "title": "A mailbox with two automatic events hands over every item once and in order", "statement": "One sender and one receiver with one shared variable and two automatic events (POSIX or Windows), `emptied` created prefired and `filled` not (sender: wait for emptied, write the variable, fire filled until that succeeds; receiver: wait for filled, read the variable, fire emptied until that succeeds): what the receiver has read is at every moment the first items of the sender, in order and each once; the variable is never written while an item in it has not been read, and never read before the next item has been written. Anyone may call Reset: it does nothing to an automatic event on POSIX; on Windows it takes the signal away, which can hold the hand-over up but not spoil it.", "quantifier": "every sequence of items, every time limit, every interleaving of the steps of both threads inside and outside the library, spurious wake-ups, every failing or timing-out call", "why_tests_cant": "A lost or repeated item needs a Fire that is lost or a Wait that passes twice at one particular moment; a test sees a few schedules.", "anchors": ["sync/sync_event.cpp: Create, Wait, Fire, Reset", "sync/sync_util.cpp: InitUnixEvent, WaitForUnixEvent, FireUnixEvent, ResetUnixEvent"]}
{"id": "C140", "title": "After a successful Wait the data that Fire published is finished", "statement": "A publisher works on shared data and then calls Fire on an event (POSIX or Windows) that was created unsignalled, manual or automatic; it does not change the data afterwards. Other threads call Wait and read the data when that has returned true; anyone may call Reset. Then whenever a thread is past a Wait that returned true, the publisher has called Fire, and everything the thread has read equals the finished data.", "quantifier": "both kinds of event, every data, every number of readers and of reads, every time limit, every interleaving, spurious wake-ups, every failing or timing-out call, every number of further calls of Fire, Reset and Wait", "why_tests_cant": "Reading unfinished data needs a Wait that returns true too early, for example after a spurious wake-up or a time-out at one particular moment.", "anchors": ["sync/sync_event.cpp: Create, Wait, Fire, Reset", "sync/sync_util.cpp: InitUnixEvent, WaitForUnixEvent, FireUnixEvent, ResetUnixEvent"]}
{"id": "C141", "title": "A semaphore or event survives the death of one of its users", "statement": "Processes share a named POSIX semaphore or event, and any of their threads can be killed at any moment, also in the middle of a call. (a) The object stays consistent: every call that returns has had the effect it reports at one moment in between, a call that was cut off has had its effect or not, and there is no undefined behaviour. (b) The others can go on: as soon as no live thread is inside a call, a Wait of a live thread with any time limit succeeds at once if there is a unit (the event is signalled), and its Release (Fire) succeeds.", "quantifier": "every initial state, every number of threads and processes, every number of killed threads, every moment, every interleaving, failing calls and spurious wake-ups", "why_tests_cant": "A test would have to kill a process between two particular instructions.", "anchors": ["sync/sync_util.cpp: InitUnixSemaphore, WaitForUnixSemaphore, ReleaseUnixSemaphore, InitUnixEvent, WaitForUnixEvent, FireUnixEvent"]}
{"id": "C142", "title": "A mutex or reader-writer lock survives the death of one of its users", "statement": "Processes share a named POSIX Mutex or ReadWriteLock, and any of their threads can be killed at any moment, also in the middle of a call. (a) The object stays consistent: there is no undefined behaviour, every call that returns has had the effect it reports at one moment in between, and a call that was cut off has had its effect or not. (b) The others can go on: as soon as no live thread has the lock and none is inside a call, a live thread gets it (reading, writing or the mutex), with any time limit.", "quantifier": "every number of threads, processes and objects, every number of killed threads, every moment, every interleaving, failing calls and spurious wake-ups", "why_tests_cant": "A test would have to kill a process between two particular instructions, and to wait for ever to see that nobody gets the lock.", "anchors": ["sync/sync_mutex.cpp: Mutex::Lock, Mutex::Unlock", "sync/sync_readwritelock.cpp: ReadLock, WriteLock, ReadUnlock, WriteUnlock", "sync/sync_util.cpp: WaitForUnixSemaphore, ReleaseUnixSemaphore, WaitForUnixEvent"]}
{"id": "C143", "title": "A semaphore or event survives the death of its users on Windows", "statement": "Threads and processes share a Semaphore or Event on Windows, and any of them can be killed at any moment, also in the middle of a call. (a) The object stays consistent: every call that returns has had the effect it reports at one moment in between, and a call that was cut off has had its effect or not. (b) The others can go on, wherever the dead were: if the effects so far leave a unit (or the event signalled), a live thread that calls Wait gets it with any time limit, and so does one that is waiting; a live thread can release a semaphore below its maximum, and fire and reset an event.", "quantifier": "every number of threads and processes, every maximum, both kinds of event, every number of killed threads, every moment, every interleaving, time-outs and failing system calls", "why_tests_cant": "A test would have to kill a thread between two particular instructions.", "anchors": ["sync/sync_semaphore.cpp: Semaphore::Wait, Semaphore::Unlock (Windows)", "sync/sync_event.cpp: Event::Wait, Event::Fire, Event::Reset (Windows)"]}
{"id": "C144", "title": "A reader-writer lock survives the death of one of its users on Windows", "statement": "Threads and processes share a ReadWriteLock on Windows, and any of them can be killed at any moment, also in the middle of a call. (a) The lock stays consistent: every call that returns has had the effect it reports at one moment in between, and a call that was cut off has had its effect or not; in particular a writer never overlaps anybody. (b) The others can go on: as soon as no live thread has the lock and none is inside a call, a live thread gets it, for reading and for writing.", "quantifier": "every number of threads and processes, every number of killed threads, every moment, every interleaving, time-outs and failing system calls", "why_tests_cant": "A test would have to kill a thread between two particular instructions, and to wait for ever to see that nobody gets the lock.", "anchors": ["sync/sync_readwritelock.cpp: ReadLock, WriteLock, ReadUnlock, WriteUnlock (Windows)"]}
{"id": "C145", "title": "The program's own name on macOS", "statement": "On macOS, GetExecutableFilename and GetExecutablePath never leave the caller's buffer. They succeed exactly if the real path of the running program fits; then the buffer holds it NUL-terminated, respectively the directory it is in with a trailing slash, and BufferSize counts it with its terminator; on failure BufferSize is zero.", "quantifier": "every buffer and buffer size, every path of the program, every file system, every answer of the system", "why_tests_cant": "The path of the program cannot be varied inside a test, and the system's limits on buffer sizes matter.", "anchors": ["utf8/utf8_appinfo.cpp: AppInfo::GetExecutableFilename (__APPLE__ lines), GetExecutablePath"]}
{"id": "C146", "title": "Deadlines of timed waits on macOS", "statement": "On macOS, the deadline of a timed wait for a semaphore or event is exactly the given number of milliseconds after now; the wait gives up at once if the clock cannot be read; and reading the clock keeps nothing: afterwards the process has as many rights to system ports as before.", "quantifier": "every time, every wait below 2^32 milliseconds, every answer of the system, every number of waits", "why_tests_cant": "The clock cannot be set in a test, failing system calls cannot be forced, and a leaked right shows only after very many waits.", "anchors": ["sync/sync_util.cpp: CSGX__ClockGetTimeRealtime (__APPLE__), WaitForUnixSemaphore, WaitForUnixEvent"]}
{"id": "C147", "title": "What making links does to the process on Windows", "statement": "On Windows, File::Symlink makes links for every account that holds the privilege to do so, even if it is not enabled, and for no other. A call changes nothing in the process: no other privilege is enabled, disabled, given or taken, the one for making links is afterwards enabled or not as before, no handle to a token stays open and no reference to a library is kept; the privilege is set for the account the thread acts for.", "quantifier": "every account, with and without impersonation, every set of privileges, every answer of the system, all names, every file system", "why_tests_cant": "A test runs with the privileges of one account, failing requests cannot be forced, and kept handles and references show only after very many calls.", "anchors": ["utf8/utf8_file_dir.cpp: File::SetThreadProcessPrivilege, File::Symlink"]}
{"id": "C148", "title": "Waiting for several workers with one semaphore", "statement": "Workers each write a result and then release one semaphore. A thread that has waited successfully once for each worker, and once for each unit the semaphore had at the beginning, finds all results finished: what it reads is what the workers have written in the end. It gets through as soon as all workers have released.", "quantifier": "any number of workers, every initial count and maximum, all results, every interleaving, every failing or timed-out call, POSIX and Windows", "why_tests_cant": "The interleavings of many threads cannot be enumerated by tests, and failing calls cannot be forced.", "anchors": ["sync/sync_util.cpp: InitUnixSemaphore, WaitForUnixSemaphore, ReleaseUnixSemaphore", "sync/sync_semaphore.cpp: Create, Lock, Unlock"]}
{"id": "C149", "title": "Mutexes taken in a fixed order do not deadlock", "statement": "A program has several mutexes and numbers them, and while a thread asks for one it holds only mutexes with smaller numbers (or the same one, through the same object; on Windows through any object). Then nobody is stuck: whenever a thread is inside a call, some thread can make a step inside a call, or some thread holds a mutex and is not inside any call, so that it is free to give it back.", "quantifier": "any number of mutexes, threads and objects, all waiting times, every interleaving of all steps, POSIX and Windows", "why_tests_cant": "A deadlock needs several threads to be in particular places at once; tests can show one but not that there is none.", "anchors": ["sync/sync_mutex.cpp: Lock, Unlock", "sync/sync_util.cpp: WaitForUnixSemaphore, ReleaseUnixSemaphore"]}
{"id": "C150", "title": "Mutexes and reader-writer locks mixed, in a fixed order, do not deadlock", "statement": "A program has several mutexes and reader-writer locks and numbers them, and while a thread asks for one it holds only locks with smaller numbers; a mutex it may also ask for again. Then nobody is stuck: whenever a thread is inside a call of any of them, some thread can make a step inside a call, or some thread holds a lock and is not inside any call, so that it is free to give it back.", "quantifier": "any number and mixture of locks, any number of threads, readers and writers, all waiting times, every interleaving of all steps, POSIX and Windows", "why_tests_cant": "A deadlock needs several threads to be in particular places at once; tests can show one but not that there is none.", "anchors": ["sync/sync_mutex.cpp: Lock, Unlock", "sync/sync_readwritelock.cpp: ReadLock, WriteLock, ReadUnlock, WriteUnlock", "sync/sync_util.cpp"]}
{"id": "C151", "title": "Programs that nest their locks in a fixed order never get stuck", "statement": "Every thread of a program runs a script of Lock and Unlock calls on numbered mutexes, one call after the other, repeating a call that returns false. The scripts lock upwards (or lock the same mutex again), unlock only what the thread has locked, and in the end have unlocked everything. Then in every state the program can reach, either all scripts are finished, nobody is inside a call and nobody holds a mutex, or some thread can go on: with a step inside a call, or with the next call of its script.", "quantifier": "any number of mutexes and threads, all such scripts, all waiting times, every interleaving of all steps, POSIX and Windows", "why_tests_cant": "A program gets stuck only in particular interleavings of several threads; a test runs some of them.", "anchors": ["sync/sync_mutex.cpp: Lock, Unlock", "sync/sync_util.cpp: WaitForUnixSemaphore, ReleaseUnixSemaphore"]}
{"id": "C152", "title": "Programs that nest their locks in a fixed order come to their end (Windows)", "statement": "Take a program as in C151 with finitely many threads, in any state it can reach, and let its threads go on, in any order, with steps inside calls and with the next calls of their scripts, Lock without a time limit. Then they can make only a bounded number of steps, and when they can make no more, all scripts are finished, nobody is inside a call and nobody holds a mutex. So every such program can be finished from every state it reaches.", "quantifier": "any number of mutexes, any finite number of threads, all such scripts, every state the program can reach, every order of the steps, Windows", "why_tests_cant": "That a program always comes to its end is a statement about all continuations of all interleavings.", "anchors": ["sync/sync_mutex.cpp: Lock, Unlock (Windows)"]}
