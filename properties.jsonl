{"id": "C01", "title": "Lock: mutual exclusion", "statement": "At no moment do two threads both hold the same internal lock (the lock behind atexit handlers, PRNG state, thread tables, the dynamic linker, ...), whatever mix of lock, try_lock and unlock calls the threads make.", "quantifier": "every number of threads, every program of lock/try_lock/unlock operations, every interleaving of their atomic steps, every spurious futex wakeup", "why_tests_cant": "needs every interleaving of an unbounded number of threads; a test run exercises a handful of schedules", "anchors": ["src/sync/mutex.rs: manual_try_lock_generic, manual_lock_generic, manual_unlock_generic", "src/sync/mod.rs: wait_until_generic"]}
{"id": "C02", "title": "Lock: no lost wakeup", "statement": "A thread that went to sleep waiting for an internal lock is never forgotten: whenever such a thread sleeps, either some thread still holds the lock, or a wake-up call for it is already under way, or another thread is about to take the lock. Hence 'lock free, waiter asleep, nobody going to wake it' is unreachable.", "quantifier": "every number of threads, every interleaving, including spurious wakeups and a value change between marking and sleeping", "why_tests_cant": "a lost wakeup needs one precise interleaving and shows up only as a hang", "anchors": ["src/sync/mutex.rs", "src/sync/mod.rs: wait_until_generic, futex_wait, futex_wake"]}
{"id": "C03", "title": "pthread_once: initialiser runs exactly once", "statement": "For one once-object, the initialiser is started at most once over the whole history, and any call that returns does so after the initialiser has completed.", "quantifier": "every number of callers and every interleaving", "why_tests_cant": "depends on all schedules of concurrent callers", "anchors": ["src/sync/once.rs: Once::call_once", "src/header/pthread/once.rs: pthread_once", "src/sync/mod.rs: wait_until_generic"]}
{"id": "C04", "title": "pthread_once: waiters are released", "statement": "A caller that sleeps waiting for another caller's initialiser is never left asleep after the initialiser has finished and its wake-up call was made.", "quantifier": "every number of callers and every interleaving", "why_tests_cant": "lost wakeups appear as rare hangs", "anchors": ["src/sync/once.rs: Once::call_once"]}
{"id": "C05", "title": "Semaphore: token conservation", "statement": "In every history the number of completed decrements (sem_wait, sem_timedwait success, sem_trywait success) never exceeds the initial value plus the number of sem_post tokens, and sem_getvalue always equals initial + posted - taken (in the range where the counter does not wrap).", "quantifier": "every initial value, number of threads, and interleaving of wait/trywait/post/getvalue, including failed compare-exchanges", "why_tests_cant": "needs every interleaving of unboundedly many threads", "anchors": ["src/sync/semaphore.rs: Semaphore::try_wait, wait, post, value", "src/header/semaphore/mod.rs"]}
{"id": "C06", "title": "Semaphore: a sleeping waiter is never stranded while tokens are available", "statement": "If a thread sleeps in sem_wait and the semaphore's value is positive, some other thread is about to wake it or to take the token; and sem_wait without a deadline reports success only after taking a token.", "quantifier": "every number of threads and interleaving, spurious wakeups included", "why_tests_cant": "a stranded waiter requires a particular schedule", "anchors": ["src/sync/semaphore.rs: Semaphore::wait"]}
{"id": "C07", "title": "Read-write lock: exclusion", "statement": "At any moment either one writer or any number of readers hold a pthread_rwlock, never a writer together with another holder; try-variants never break this.", "quantifier": "every number of threads, every interleaving of rd/wr/tryrd/trywr/unlock", "why_tests_cant": "needs all interleavings", "anchors": ["src/sync/rwlock.rs: InnerRwLock::acquire_read_lock, acquire_write_lock, try_acquire_*, unlock", "src/header/pthread/rwlock.rs"]}
{"id": "C08", "title": "Read-write lock: no lost wakeup", "statement": "A thread asleep on a rwlock always has an active holder or a wake-up in flight; a free rwlock with a sleeping thread and nobody to wake it is unreachable.", "quantifier": "every number of readers and writers, every interleaving", "why_tests_cant": "shows only as a rare hang", "anchors": ["src/sync/rwlock.rs"]}
{"id": "C09", "title": "pthread_mutex: ownership", "statement": "For every mutex type, at most one thread owns a pthread_mutex; unlock by a thread that does not own an error-checking, recursive or robust mutex fails with EPERM and changes nothing; a recursive mutex is released only after as many unlocks as locks.", "quantifier": "all mutex types, every number of threads, every sequence and interleaving of lock/trylock/unlock", "why_tests_cant": "histories and interleavings are unbounded", "anchors": ["src/sync/pthread_mutex.rs: RlctMutex::lock_inner, try_lock, unlock, make_consistent", "src/header/pthread/mutex.rs"]}
{"id": "C10", "title": "pthread_mutex: no lost wakeup", "statement": "A thread asleep in pthread_mutex_lock is always accounted for: the mutex is owned with its waiters marked, or a wake-up is in flight.", "quantifier": "every number of threads and interleaving", "why_tests_cant": "a hang on one schedule", "anchors": ["src/sync/pthread_mutex.rs"]}
{"id": "C11", "title": "pthread_cond: signals sent under the mutex are not lost", "statement": "If every signal/broadcast is performed while holding the associated mutex, a thread that entered pthread_cond_wait before the broadcast does not remain asleep after it.", "quantifier": "every number of waiters and signallers, every interleaving", "why_tests_cant": "needs every schedule between the unlock and the sleep", "anchors": ["src/sync/cond.rs: Cond::wait_inner_generic, wake, signal, broadcast"]}
{"id": "C12", "title": "pthread_barrier: nobody passes early, one serial thread per round", "statement": "No thread returns from round k of a barrier of size n before n threads have arrived in round k, and exactly one of the n returns gets PTHREAD_BARRIER_SERIAL_THREAD, for every round.", "quantifier": "every size n >= 1, every number of rounds, every arrival order and interleaving", "why_tests_cant": "rounds and interleavings are unbounded", "anchors": ["src/sync/barrier.rs: Barrier::wait", "src/header/pthread/barrier.rs"]}
{"id": "C13", "title": "Spinlock: mutual exclusion", "statement": "pthread_spin_lock/trylock/unlock never let two threads hold the spinlock together, and trylock fails with EBUSY exactly when it is held.", "quantifier": "every number of threads and interleaving", "why_tests_cant": "needs every interleaving", "anchors": ["src/header/pthread/spin.rs"]}
{"id": "C14", "title": "pthread_join delivers the thread's return value", "statement": "pthread_join returns only after the target has finished, and with the value the target returned.", "quantifier": "every interleaving of the finishing thread and the joiner, including wakeups that arrive before the joiner sleeps", "why_tests_cant": "interleavings", "anchors": ["src/sync/waitval.rs: Waitval::post, wait", "src/pthread/mod.rs: join, exit_current_thread"]}
{"id": "C15", "title": "Thread-specific data behaves as a map", "statement": "pthread_getspecific returns the value last stored by this thread with pthread_setspecific for that key since the key was created, or NULL; operations on one key or in one thread never affect another; a key returned by pthread_key_create is never equal to an earlier one.", "quantifier": "every sequence of create/delete/set/get over any number of threads and keys", "why_tests_cant": "unbounded histories", "anchors": ["src/header/pthread/tls.rs"]}
{"id": "C16", "title": "Thread exit runs key destructors correctly", "statement": "At thread exit each non-NULL value of a key with a destructor is handed to that destructor exactly once per pass, with the slot reset to NULL before the call; the passes stop when no non-NULL values remain or after PTHREAD_DESTRUCTOR_ITERATIONS passes.", "quantifier": "every set of keys, values and destructor behaviours (including destructors that set values again)", "why_tests_cant": "destructors are arbitrary code", "anchors": ["src/header/pthread/tls.rs: run_all_destructors"]}
{"id": "C17", "title": "memmove/memcpy/memset/memccpy: exact effect and nothing else", "statement": "After memmove(d,s,n) the n bytes at d equal the n bytes that were at s before the call even when the regions overlap in any way, and no byte outside [d,d+n) changes. The same for memcpy on disjoint regions and memset; no byte outside the given regions is read or written.", "quantifier": "every memory content, every d, s, n including all overlaps", "why_tests_cant": "overlap offsets and lengths are unbounded", "anchors": ["src/header/string/mod.rs: memmove, memcpy, memset, memccpy"]}
{"id": "C18", "title": "memcmp/strcmp/strncmp order strings lexicographically", "statement": "memcmp, strcmp and strncmp return a negative, zero or positive value exactly according to the lexicographic order of the (unsigned) byte sequences they compare; zero exactly for equal sequences; bytes after the terminator are never read.", "quantifier": "all memory contents, lengths and word-alignment splits", "why_tests_cant": "input space unbounded; word-at-a-time path depends on length", "anchors": ["src/header/string/mod.rs: memcmp, strcmp, strncmp"]}
{"id": "C19", "title": "Search functions return the right position", "statement": "memchr/strchr/strchrnul return the first, memrchr/strrchr the last occurrence of the byte and report absence exactly when there is none; the terminator counts as part of the string for str*.", "quantifier": "every string and byte", "why_tests_cant": "unbounded inputs", "anchors": ["src/header/string/mod.rs: memchr, memrchr, strchr, strrchr, strchrnul"]}
{"id": "C20", "title": "strstr/memmem find the first occurrence", "statement": "strstr and memmem return the leftmost position at which the needle occurs, and NULL exactly when it does not occur; the empty needle matches at the start. strcasestr does the same, ignoring the case of ASCII letters.", "quantifier": "every haystack and needle", "why_tests_cant": "unbounded inputs", "anchors": ["src/header/string/mod.rs: strstr, inner_strstr, memmem, strcasestr"]}
{"id": "C21", "title": "strspn/strcspn/strpbrk/strsep/strtok_r tokenise as specified", "statement": "strspn/strcspn return the length of the longest prefix inside/outside the set; strpbrk the first member; repeated strtok_r yields exactly the maximal non-empty runs of non-separator bytes, in order; strsep yields all fields including empty ones.", "quantifier": "every string and separator set", "why_tests_cant": "unbounded inputs and call sequences", "anchors": ["src/header/string/mod.rs: strspn, strcspn, inner_strspn, strpbrk, strsep, strtok_r, inner_strtok_r"]}
{"id": "C22", "title": "Bounded string copies never overflow and report truncation", "statement": "strlcpy/strlcat/strncpy/stpncpy/strncat/strnlen touch at most the given number of bytes of the destination, produce the documented prefix, terminate as documented, and strlcpy/strlcat return the length they tried to create.", "quantifier": "every source, destination content and size, including 0 and exact fit", "why_tests_cant": "boundary sizes relative to unbounded strings", "anchors": ["src/header/string/mod.rs: strlcpy, strlcat, strncpy, stpncpy, strncat, strnlen, strdup, strndup"]}
{"id": "C23", "title": "strtol family: value, end pointer and errno", "statement": "strtol/strtoul/strtoll/strtoull/strtoimax/strtoumax convert the longest valid prefix (optional blanks, sign, base prefix, digits of the base): the value is exact when representable, saturated with ERANGE otherwise, and the end pointer designates the first unconverted character (the start if nothing was converted).", "quantifier": "every string and every base 0, 2..36", "why_tests_cant": "unbounded strings, all bases, overflow boundaries", "anchors": ["src/macros.rs: strto_impl", "src/header/stdlib/mod.rs: convert_integer, convert_octal, convert_hex, detect_base, is_positive, strtol, strtoul"]}
{"id": "C24", "title": "a64l and l64a are inverse", "statement": "For every long whose low 32 bits are x, a64l(l64a(x)) equals x sign-extended from 32 bits, and l64a produces at most 6 characters of the radix-64 alphabet with no trailing '.' digit.", "quantifier": "every 32-bit value", "why_tests_cant": "2^32 values; inverse law", "anchors": ["src/header/stdlib/mod.rs: a64l, l64a"]}
{"id": "C25", "title": "qsort sorts and permutes", "statement": "qsort leaves the array a permutation of its input for any comparator, and sorted whenever the comparator is a total preorder.", "quantifier": "every array length, element width, content and comparator", "why_tests_cant": "unbounded arrays and arbitrary comparators", "anchors": ["src/header/stdlib/sort.rs: introsort, insertion_sort, swap", "src/header/stdlib/mod.rs: qsort"]}
{"id": "C26", "title": "bsearch finds a match exactly when one exists", "statement": "On an array sorted consistently with the key, bsearch returns a matching element if any exists and NULL otherwise, looking only at elements of the array.", "quantifier": "every array length, content, key", "why_tests_cant": "unbounded arrays", "anchors": ["src/header/stdlib/mod.rs: bsearch"]}
{"id": "C27", "title": "Environment is a map from names to values", "statement": "After any history of setenv/putenv/unsetenv, getenv(name) returns the most recently set value, or NULL if unset; operations on one name leave all other names unchanged; setenv with overwrite=0 keeps an existing value.", "quantifier": "every initial environment and every sequence of calls", "why_tests_cant": "unbounded histories", "anchors": ["src/header/stdlib/mod.rs: getenv, setenv, putenv, unsetenv, find_env, put_new_env, copy_kv", "src/platform/mod.rs: environ_iter, OUR_ENVIRON"]}
{"id": "C28", "title": "exit runs atexit handlers in reverse order, each exactly once", "statement": "exit() invokes every successfully registered atexit handler exactly once in reverse order of registration, for up to ATEXIT_MAX registrations; registrations beyond the limit are refused and do not disturb the earlier ones. The same for at_quick_exit/quick_exit.", "quantifier": "every sequence of registrations", "why_tests_cant": "histories", "anchors": ["src/header/stdlib/mod.rs: atexit, at_quick_exit, exit, quick_exit, ATEXIT_FUNCS"]}
{"id": "C29", "title": "drand48 family is the POSIX linear congruential generator", "statement": "erand48/nrand48/jrand48/drand48/lrand48/mrand48 advance X' = (a X + c) mod 2^48 with the documented default constants and return the documented high bits; srand48, seed48 and lcong48 set exactly the state POSIX prescribes.", "quantifier": "every state and parameter, every call sequence", "why_tests_cant": "2^48 states, arbitrary parameter settings", "anchors": ["src/header/stdlib/rand48.rs", "src/header/stdlib/mod.rs: drand48, erand48, lrand48, nrand48, mrand48, jrand48, srand48, seed48, lcong48"]}
{"id": "C30", "title": "random() state switching is safe and lossless", "statement": "random() only touches its state array; initstate/setstate switch arrays such that switching away and back resumes the sequence exactly where it stopped; results are below 2^31.", "quantifier": "every seed, state size and interleaved history of random/srandom/initstate/setstate", "why_tests_cant": "unbounded histories over several state arrays", "anchors": ["src/header/stdlib/random.rs", "src/header/stdlib/mod.rs: random, srandom, initstate, setstate"]}
{"id": "C31", "title": "UTF-8 encode/decode round trip", "statement": "For every Unicode scalar value, wcrtomb writes its UTF-8 encoding and mbrtowc on those bytes returns the same character and the same length.", "quantifier": "all scalar values", "why_tests_cant": "a universally quantified inverse law; combined with C32 it characterises the codec", "anchors": ["src/header/wchar/utf8.rs: mbrtowc, wcrtomb", "src/header/wchar/mod.rs"]}
{"id": "C32", "title": "Malformed UTF-8 is rejected", "statement": "mbrtowc never accepts an overlong form, a surrogate, a value above U+10FFFF or a bad continuation byte: whenever it reports success with n > 0, the n bytes are the unique UTF-8 encoding of the result.", "quantifier": "every byte sequence and length limit", "why_tests_cant": "all byte sequences", "anchors": ["src/header/wchar/utf8.rs: mbrtowc"]}
{"id": "C33", "title": "Timespec arithmetic is exact", "statement": "Adding or subtracting two normalised timespecs yields the normalised timespec of the exact sum/difference, or failure when it is not representable/negative; a realtime deadline converted to the monotonic clock expires at the same instant.", "quantifier": "all second/nanosecond pairs", "why_tests_cant": "arithmetic over 64-bit ranges", "anchors": ["src/header/bits_timespec/mod.rs: timespec::add, subtract", "src/header/time/mod.rs: timespec_realtime_to_monotonic"]}
{"id": "C34", "title": "snprintf stays within the buffer, terminates it and reports the full length", "statement": "snprintf(s, n, ...) writes at most n bytes, for n > 0 leaves a NUL-terminated prefix of the full output of length min(len, n-1), and returns the length of the full output.", "quantifier": "every buffer size (including 0 and 1) and every output split into chunks", "why_tests_cant": "all sizes x all outputs", "anchors": ["src/platform/mod.rs: StringWriter, CountingWriter", "src/header/stdio/mod.rs: snprintf, vsnprintf"]}
{"id": "C35", "title": "printf integer conversions", "statement": "%d %i %u %o %x %X %b with every combination of flags, width and precision print exactly the text the C standard prescribes, for every integer.", "quantifier": "every integer, flag combination, width and precision", "why_tests_cant": "infinite product of values and formats", "anchors": ["src/header/stdio/printf.rs: inner_printf, fmt_int, pad, PrintfIter"]}
{"id": "C36", "title": "Reading from a stream preserves the byte sequence", "statement": "The bytes returned by any mixture of fgetc, fread, fgets, getdelim and ungetc on a stream are exactly the bytes of the underlying file in order, with pushed-back bytes re-read first in LIFO order; none lost, duplicated or reordered, for any pattern of short reads.", "quantifier": "every file content, buffer size, read pattern and sequence of calls", "why_tests_cant": "unbounded sequences, arbitrary short reads", "anchors": ["src/header/stdio/mod.rs: FILE::read, fill_buf, consume, fgets, fread, ungetc, getc_unlocked", "src/header/stdio/getdelim.rs"]}
{"id": "C37", "title": "Buffered output reaches the file exactly once and in order", "statement": "For every sequence of writes and flushes on a buffered or line-buffered stream, the bytes delivered to the file descriptor followed by the bytes still buffered are exactly the bytes accepted so far, in order, even if the descriptor accepts short writes or fails part-way.", "quantifier": "every sequence of writes/flushes, buffer capacity, and every pattern of short writes and errors from the kernel", "why_tests_cant": "unbounded histories with adversarial write results", "anchors": ["src/io/buffered.rs: BufWriter::write, flush_buf, LineWriter", "src/header/stdio/mod.rs: FileInnerWriter, fwrite, fflush"]}
{"id": "C38", "title": "fgets returns one line at most and never overruns", "statement": "fgets(buf, n, f) stores at most n-1 bytes plus a NUL, stops after the first newline, and returns NULL exactly when no byte could be read.", "quantifier": "every stream state, n and content, including pushed-back bytes", "why_tests_cant": "arbitrary interaction of pushback, buffer boundary and n", "anchors": ["src/header/stdio/mod.rs: fgets"]}
{"id": "C39", "title": "ftell/fseek agree with the stream position", "statement": "ftell reports the offset of the next byte a read would return (or write would produce); fseek(SEEK_CUR, 0) leaves the position unchanged and fseek(SEEK_SET, p) makes ftell return p.", "quantifier": "every reachable stream state", "why_tests_cant": "states arise from arbitrary histories of reads, pushbacks and writes", "anchors": ["src/header/stdio/mod.rs: fseek_locked, ftell_locked"]}
{"id": "C40", "title": "Byte order conversions are involutive and big-endian", "statement": "htonl/htons/ntohl/ntohs and the endian(3) family are inverse to each other and produce the stated byte order.", "quantifier": "all 16/32/64-bit values", "why_tests_cant": "universally quantified law", "anchors": ["src/header/arpa_inet/mod.rs: htonl, htons, ntohl, ntohs", "src/header/endian/mod.rs"]}
{"id": "C41", "title": "IPv4 text conversions", "statement": "inet_pton(AF_INET) accepts exactly dotted quads of decimal octets 0..255 and is the left inverse of inet_ntop; inet_aton accepts the classful a, a.b, a.b.c, a.b.c.d forms and yields the corresponding address; inet_makeaddr/inet_netof/inet_lnaof decompose addresses consistently.", "quantifier": "every address and every string", "why_tests_cant": "2^32 addresses, unbounded strings", "anchors": ["src/header/arpa_inet/mod.rs"]}
{"id": "C42", "title": "Signal sets behave as sets", "statement": "sigaddset/sigdelset/sigismember/sigemptyset/sigfillset implement finite-set semantics over the valid signal numbers; each call affects exactly the given signal; invalid numbers are refused with EINVAL.", "quantifier": "every set and signal number", "why_tests_cant": "all sets x all ints", "anchors": ["src/header/signal/mod.rs: sigaddset, sigdelset, sigemptyset, sigfillset, sigismember, sigandset, sigorset"]}
{"id": "C43", "title": "basename/dirname split paths as POSIX prescribes", "statement": "basename and dirname return the final component / the directory part as POSIX prescribes, treating trailing and repeated slashes correctly, for every path, including empty and NULL.", "quantifier": "every path", "why_tests_cant": "unbounded strings", "anchors": ["src/header/libgen/mod.rs"]}
{"id": "C44", "title": "getopt processes every argument once", "statement": "Repeated getopt calls return the options in order, with their arguments, leave optind at the first non-option argument, and terminate.", "quantifier": "every argument vector and option string", "why_tests_cant": "unbounded argument vectors", "anchors": ["src/header/getopt/mod.rs", "src/header/unistd/mod.rs: getopt"]}
{"id": "C45", "title": "Growable C buffer (asprintf) keeps its contents", "statement": "The buffer that asprintf/vasprintf and friends grow holds exactly the bytes appended, in order, within its allocation, through every sequence of push/extend/append/shrink operations.", "quantifier": "every sequence of operations and sizes", "why_tests_cant": "unbounded histories", "anchors": ["src/c_vec.rs: CVec::push, extend_from_slice, append, reserve, shrink_to_fit"]}
{"id": "C46", "title": "Line reader over a descriptor yields the file's lines", "statement": "The line reader used for passwd/group/hosts parsing returns exactly the newline-separated lines of the file in order regardless of how reads are split, and its reported position is the offset of the current line's start.", "quantifier": "every file content and read split", "why_tests_cant": "arbitrary read splits", "anchors": ["src/platform/rlb.rs: RawLineBuffer::next, line_pos"]}
{"id": "C47", "title": "DNS messages survive compile/parse, parsing always terminates", "statement": "Parsing a compiled query message gives back the same message for every well-formed query, and parsing any received bytes terminates with a message or an error without reading outside the packet.", "quantifier": "every message and every byte string from the network", "why_tests_cant": "adversarial network input", "anchors": ["src/header/netdb/dns/mod.rs: Dns::compile, Dns::parse"]}
{"id": "C48", "title": "Allocation-size arithmetic never wraps", "statement": "calloc and reallocarray either fail or provide at least n*size bytes (mathematical product); posix_memalign/aligned_alloc accept exactly the alignments the standard allows.", "quantifier": "all size pairs and alignments", "why_tests_cant": "2^128 pairs", "anchors": ["src/header/stdlib/mod.rs: calloc, reallocarray, posix_memalign, aligned_alloc, memalign"]}
{"id": "C49", "title": "Character classification is consistent", "statement": "isalnum, isalpha, isblank, iscntrl, isdigit, isgraph, islower, isprint, ispunct, isspace, isupper, isxdigit, tolower, toupper give the C-locale answer for EOF and every int and satisfy the standard relations between classes.", "quantifier": "every int argument", "why_tests_cant": "2^32 arguments", "anchors": ["src/header/ctype/mod.rs"]}
{"id": "C50", "title": "Case-insensitive comparison is an equivalence", "statement": "strcasecmp/strncasecmp compare exactly as the byte comparison of the lower-cased strings; in particular they are reflexive, symmetric and transitive.", "quantifier": "every pair of strings", "why_tests_cant": "unbounded strings", "anchors": ["src/header/strings/mod.rs: strcasecmp, strncasecmp, inner_casecmp"]}
{"id": "C51", "title": "ffs/ffsl/ffsll, bcmp, index and friends", "statement": "ffs returns the 1-based position of the least significant set bit, 0 for 0.", "quantifier": "every int", "why_tests_cant": "2^32/2^64 inputs", "anchors": ["src/header/strings/mod.rs"]}
{"id": "C52", "title": "Cancellation requests are not lost", "statement": "If one thread requests cancellation of another, and the target enables cancellation and never disables it again, the request is acted upon: either the requester sends the signal or the target sees the request when enabling.", "quantifier": "every interleaving of pthread_cancel and pthread_setcancelstate", "why_tests_cant": "interleavings", "anchors": ["src/pthread/mod.rs: cancel, set_cancel_state, testcancel"]}
{"id": "C53", "title": "Wide string functions mirror the narrow ones", "statement": "wcslen, wcscmp, wcsncmp, wcschr, wcsrchr, wcscpy, wcsncpy, wcscat, wcsncat, wcsspn, wcscspn, wcspbrk, wcsstr, wcstok, wmemchr, wmemcmp, wmemcpy, wmemmove, wmemset compute the same result as the specification of their byte counterparts on wide characters.", "quantifier": "every wide string", "why_tests_cant": "unbounded strings", "anchors": ["src/header/wchar/mod.rs"]}
{"id": "C54", "title": "wcstol family: value, end pointer and errno", "statement": "wcstol/wcstoul/wcstoll/wcstoull convert as the strtol family does, on wide strings.", "quantifier": "every wide string and base", "why_tests_cant": "unbounded strings, overflow boundaries", "anchors": ["src/macros.rs: wcsto_impl"]}
{"id": "C55", "title": "fd_set and select report exactly the ready descriptors", "statement": "After select returns, each set contains exactly the descriptors that were requested and are ready, and the return value is the number of bits set.", "quantifier": "every combination of requested sets and ready descriptors", "why_tests_cant": "2^3072 combinations", "anchors": ["src/header/sys_select/mod.rs: select_epoll"]}
{"id": "C56", "title": "Lifetime of the thread control block", "statement": "The memory that represents a thread is released exactly once after the thread was joined or detached and has finished, and is not accessed afterwards.", "quantifier": "every interleaving of exit, join and detach", "why_tests_cant": "a use after free needs a precise interleaving", "anchors": ["src/pthread/mod.rs: join, detach, exit_current_thread, dealloc_thread", "src/sync/waitval.rs: Waitval::post"]}
{"id": "C57", "title": "Disabled cancellation is respected", "statement": "A thread that has called pthread_setcancelstate(PTHREAD_CANCEL_DISABLE) is not cancelled until it enables cancellation again.", "quantifier": "every interleaving of pthread_cancel with the target's own calls", "why_tests_cant": "a race of a few instructions", "anchors": ["src/pthread/mod.rs: cancel, cancel_sighandler, set_cancel_state"]}
{"id": "C58", "title": "The Rust global allocator keeps the old block when realloc fails", "statement": "When the global allocator's realloc reports failure, the old block is still allocated with its contents; when it succeeds, the new block has the requested alignment and size and holds the old contents up to the smaller size.", "quantifier": "every layout, new size and allocator state", "why_tests_cant": "needs allocation failure at a particular moment with an over-aligned layout", "anchors": ["src/platform/allocator/mod.rs: GlobalAlloc::realloc"]}
{"id": "C59", "title": "Conversion between multibyte and wide strings", "statement": "mbsrtowcs, mbsnrtowcs, wcsrtombs and wcsnrtombs convert exactly the characters of the source that fit, report their number, leave *src after the last converted character or null it after the terminator, return (size_t)-1 for an invalid character, and with a null destination only count, leaving *src alone.", "quantifier": "every source string, destination size and byte limit", "why_tests_cant": "unbounded strings, all truncation points", "anchors": ["src/header/wchar/mod.rs: mbsnrtowcs, mbsrtowcs, wcsnrtombs, wcsrtombs"]}
{"id": "C60", "title": "mbrtowc decodes a character supplied in pieces", "statement": "Feeding the bytes of a character to mbrtowc one piece at a time with the same mbstate_t yields the character at the last piece.", "quantifier": "every character and every way to cut its encoding", "why_tests_cant": "all characters x all cuts", "anchors": ["src/header/wchar/mod.rs: mbrtowc", "src/header/wchar/utf8.rs: mbrtowc"]}
{"id": "C61", "title": "Single-character conversion functions", "statement": "mblen, mbtowc, wctomb, btowc and wctob convert exactly one character and report its length, 0 for the null character and -1 (EOF, WEOF) for what is not a character.", "quantifier": "every byte sequence, limit and wide character", "why_tests_cant": "2^32 characters and unbounded byte sequences", "anchors": ["src/header/stdlib/mod.rs: mblen, mbtowc, wctomb", "src/header/wchar/mod.rs: btowc, wctob"]}
{"id": "C62", "title": "printf text conversions, width, precision and %n", "statement": "Any mixture of ordinary text, %%, %c, %s and %n, with any width, precision and justification, prints exactly the text the C standard prescribes, stores the count for %n and returns the number of bytes; extra arguments are ignored, and a format with conversions reads its arguments in order.", "quantifier": "every format, string and width/precision, literal or from the argument list", "why_tests_cant": "unbounded formats and strings", "anchors": ["src/header/stdio/printf.rs: inner_printf, PrintfIter, VaListCache"]}
{"id": "C63", "title": "sigprocmask changes the signal mask and loses no signal", "statement": "sigprocmask sets the calling thread's mask to the union, difference or replacement POSIX prescribes, reports the previous mask, keeps SIGKILL, SIGSTOP and the two internal signals deliverable, loses no signal sent to the thread while it runs, and delivers a pending signal it unblocks before it returns; an unknown 'how' changes nothing.", "quantifier": "every mask, set, 'how' and every interleaving of signals posted by other threads", "why_tests_cant": "signals arriving between any two atomic accesses", "anchors": ["src/header/signal/mod.rs: sigprocmask", "src/platform/redox/signal.rs: sigprocmask", "redox-rt/src/signal.rs: modify_sigmask, set_allowset_raw"]}
{"id": "C64", "title": "Waiting calls leave the signal mask as they found it", "statement": "When sigsuspend, sigwait, sigtimedwait, sigwaitinfo, ppoll, pselect or epoll_pwait returns, the calling thread's signal mask is the one it had before the call.", "quantifier": "every mask before the call and every temporary mask", "why_tests_cant": "depends on 64-bit mask combinations and signals arriving meanwhile", "anchors": ["redox-rt/src/signal.rs: await_signal_sync, await_signal_async, callback_signal, set_allowset_raw"]}
{"id": "C65", "title": "Allocated blocks behave as private arrays", "statement": "For any program that only resizes and frees what it owns, every block returned by malloc, calloc, realloc, reallocarray, aligned_alloc or posix_memalign is disjoint from all other live blocks, keeps exactly what the program wrote into it until it is freed or resized, realloc preserves the contents up to the smaller size, a refused request changes nothing, and free(NULL) does nothing.", "quantifier": "every sequence of calls, every size and alignment, every pattern of allocation failure", "why_tests_cant": "the sequences of calls and failures are unbounded", "anchors": ["src/header/stdlib/mod.rs: malloc, calloc, realloc, reallocarray, aligned_alloc, posix_memalign, free", "src/platform/allocator/mod.rs"]}
{"id": "C66", "title": "Buffered output of every stream is delivered at exit and by fflush(NULL)", "statement": "After exit or fflush(NULL) the bytes still buffered in any open output stream have reached the file descriptor, for every stream the program has open.", "quantifier": "every set of open streams and every buffer content", "why_tests_cant": "the number of streams and what they hold is unbounded", "anchors": ["src/header/stdio/mod.rs: flush_io_streams, fflush", "src/header/stdlib/mod.rs: exit"]}
{"id": "C67", "title": "A stream on a seekable file behaves like a file with a position", "statement": "For every sequence of reads, writes, seeks and position queries that C allows on a stream opened for update (a seek or flush between writing and reading), the results and the final file are those of an unbuffered array of bytes with a position: buffering is unobservable.", "quantifier": "every file content, every call sequence C allows, every split of the kernel's reads and writes", "why_tests_cant": "unbounded call histories times adversarial short reads and writes", "anchors": ["src/header/stdio/mod.rs: FILE::read, FILE::write, fread, fwrite, fseek_locked, ftell_locked", "src/io/buffered.rs"]}
{"id": "C68", "title": "feof and ferror report exactly what happened", "statement": "A reading call sets the end-of-file indicator exactly when it met the end of the file and the error indicator exactly when the kernel reported an error; the indicators stay until clearerr, and a successful fseek or ungetc clears end-of-file; no call changes any other property of the stream's flags.", "quantifier": "every stream state, file content and kernel answer", "why_tests_cant": "depends on arbitrary histories and on errors at a particular call", "anchors": ["src/header/stdio/mod.rs: feof, ferror, clearerr, fill_buf, fseek_locked, ungetc", "src/header/stdio/getdelim.rs"]}
{"id": "C69", "title": "Network database enumeration and lookup", "statement": "After set\u2026ent, repeated get\u2026ent calls return the entries of /etc/hosts, /etc/networks, /etc/protocols or /etc/services in file order, each once, comment and blank lines left out, then NULL; get\u2026byname, get\u2026bynumber and get\u2026byport return the first matching entry of the file, or NULL if there is none, whatever calls were made before; and every call returns.", "quantifier": "every file content, every read split, every sequence of earlier calls", "why_tests_cant": "file contents, read splits and call histories are unbounded", "anchors": ["src/header/netdb/mod.rs: getnetent, getprotoent, getservent, getnetbyname, getprotobyname, getprotobynumber, getservbyname, getservbyport, setnetent, setprotoent, setservent", "src/header/netdb/host.rs"]}
{"id": "C70", "title": "poll reports every entry", "statement": "When poll or ppoll returns a number, every entry's revents holds exactly the conditions asked for, errors and hangups of its descriptor (POLLNVAL if it is not open, nothing if it is negative), and the number is that of the entries with nonzero revents; it returns as soon as some entry has something to report and waits no longer and no shorter than the timeout.", "quantifier": "every list of entries and every state of the descriptors", "why_tests_cant": "unbounded lists of descriptors times their states", "anchors": ["src/header/poll/mod.rs: poll_epoll, poll, ppoll"]}
{"id": "C71", "title": "fnmatch matches as POSIX says", "statement": "fnmatch returns 0 exactly when the whole string matches the pattern by the POSIX rules for *, ?, bracket expressions and backslash, with a slash only matched by a slash under FNM_PATHNAME and a leading period only by a period under FNM_PERIOD, FNM_NOMATCH otherwise, and reads nothing outside of the two strings.", "quantifier": "every pattern, every string, every combination of flags", "why_tests_cant": "patterns and strings are unbounded; the language of a pattern is infinite", "anchors": ["src/header/fnmatch/mod.rs: tokenize, fnmatch"]}
{"id": "C72", "title": "readv and writev move the bytes in order", "statement": "readv stores the bytes that were read into the buffers in the order of the array, filling each before going on to the next, and touches nothing else; writev writes the concatenation of the buffers; both return what the transfer returned, and refuse more than IOV_MAX buffers without effect.", "quantifier": "every number, place and size of buffers, every amount of bytes delivered by the kernel, every error", "why_tests_cant": "the number and sizes of the buffers and the amount delivered are unbounded", "anchors": ["src/header/sys_uio/mod.rs: gather, scatter, readv, writev"]}
{"id": "C73", "title": "A directory stream gives every entry once, and telldir/seekdir come back", "statement": "readdir gives every entry of a directory once, in the order of the kernel, then the null pointer; seekdir with a value from telldir makes readdir go on from the place where telldir was called; rewinddir goes to the beginning; a failed read is reported and does not change the entries read later.", "quantifier": "every directory, all lengths of entries, every way the kernel cuts its answers, every sequence of readdir, telldir, seekdir and rewinddir", "why_tests_cant": "the kernel decides how many entries a call delivers; the sequences of calls are unbounded", "anchors": ["src/header/dirent/mod.rs: DIR::next_dirent, DIR::seek, DIR::rewind, readdir, telldir, seekdir, rewinddir", "src/platform/linux/mod.rs: getdents, dent_reclen_offset", "src/platform/redox/mod.rs: getdents, dent_reclen_offset"]}
{"id": "C74", "title": "sigaction and signal report and keep each signal's action", "statement": "After any sequence of sigaction and signal calls, each call that succeeds reports the action the program last asked for that signal (SIG_DFL if it never asked), with handler, flags and mask if the signal is caught; a call fails exactly for a number that is no signal or when the action of SIGKILL or SIGSTOP would change, and then changes nothing; no call affects another signal's action. Setting SIG_IGN discards the pending instances of that signal and of no other; after execve exactly the ignored signals are still ignored. siginterrupt(sig, flag) sets or clears SA_RESTART for both values of flag.", "quantifier": "all sequences of calls, all signals, handlers, flag words and masks, all pending sets", "why_tests_cant": "Actions are packed into two words with flag bits sharing the handler's word and defaults encoded as addresses; tests exercise a few signals and flags, not every sequence and encoding.", "anchors": ["redox-rt/src/signal.rs:402-531", "redox-rt/src/signal.rs:974-1018", "src/platform/redox/signal.rs:130-185", "src/header/signal/mod.rs:537-552", "src/header/signal/mod.rs:475-500"]}
{"id": "C75", "title": "While a handler runs the mask is as sigaction promised, and it is restored afterwards", "statement": "When a caught signal is delivered its handler is called with the arguments SA_SIGINFO promises; while it runs exactly the previously blocked signals, those of sa_mask and (without SA_NODEFER) the signal itself are blocked, never SIGKILL and SIGSTOP; when it returns the previous mask is back, no pending signal was lost and unblocked ones are delivered at once; SA_RESETHAND resets the action once; concurrent changes of the action neither crash delivery nor get lost; uc_sigmask is the mask that will be restored.", "quantifier": "all masks, actions, signals, states left by the handler, and signals posted by others between any two accesses", "why_tests_cant": "The interleavings of the delivery code with other threads posting signals or calling sigaction cannot be enumerated or forced by tests.", "anchors": ["redox-rt/src/signal.rs:105-300"]}
{"id": "C76", "title": "sigaltstack reports and keeps the alternate stack, and never changes one in use", "statement": "Over any sequence of sigaltstack calls, on and off the alternate stack, each call reports the stack last established (SS_DISABLE if none) and whether the thread runs on it (SS_ONSTACK); a call with invalid flags fails with EINVAL, one while running on the stack with EPERM, one with fewer than MINSIGSTKSZ bytes with ENOMEM, and failing calls change nothing.", "quantifier": "all sequences of calls, all stack pointers, bases, sizes (within the address space) and flag words", "why_tests_cant": "State dependent behaviour over arbitrary call sequences; running on the stack in every position cannot be tested.", "anchors": ["redox-rt/src/signal.rs:689-760", "src/platform/redox/signal.rs:187-222", "src/header/signal/mod.rs:346-352"]}
{"id": "C77", "title": "sigwait, sigwaitinfo and sigtimedwait take exactly one pending signal of the set", "statement": "The signal returned is in the set and was pending for the thread or the process; exactly that one is consumed and no other pending signal is lost or invented, also when the call fails; a signal of the set already pending for the thread makes the call return at once with one that is no higher; sigwait returns only when it has a signal of the set.", "quantifier": "all sets, pending sets, and signals posted to thread and process and taken by other threads between any two accesses", "why_tests_cant": "Signals lost to a race between two atomic accesses show up in no test.", "anchors": ["redox-rt/src/signal.rs:840-973", "src/platform/redox/signal.rs:256-271", "src/header/signal/mod.rs:761-769"]}
{"id": "C78", "title": "sscanf stores the right values and types", "statement": "sscanf always returns for a well formed format, with a value between -1 and the number of its storing conversions. Through each argument it stores at most once, in order, and only an object of the type that the conversion and its length modifier ask for; a string is no longer than the width. If the input fits the format, the values stored are those written in the input (numbers to the base of the conversion, strings, characters, members of a set), and the number of conversions is returned.", "quantifier": "every input string; every format made of white space, literal characters and conversions with optional *, width and length modifier", "why_tests_cant": "a wrong type or length overwrites the memory next to the argument, and formats and inputs combine without bound", "anchors": ["src/header/stdio/scanf.rs:28-492", "src/header/stdio/reader.rs:22-47"]}
{"id": "C79", "title": "dlsym and symbol references find the first definition in scope order", "statement": "dlsym with RTLD_DEFAULT, dlsym with the handle of a library, and a reference from a loaded object find the first global definition among the objects of the scope, in the order they were loaded (the program first), or the first weak definition if there is no global one, or report that there is none. The scope of a library is the library and everything it was linked with, directly or not; the handle of dlopen(NULL) stands for the global scope.", "quantifier": "all programs and libraries, all sequences of dlopen and dlclose, all sets of definitions", "why_tests_cant": "the scopes depend on the whole history of loading and unloading and on the graph of dependencies; tests use one or two libraries with distinct symbol names", "anchors": ["src/ld_so/linker.rs:Scope::_get_sym", "src/ld_so/linker.rs:Linker::get_sym", "src/ld_so/linker.rs:Linker::load_objects_recursive", "src/header/dlfcn/mod.rs:dlsym"]}
{"id": "C80", "title": "Objects are initialised after the objects they need, each once", "statement": "Loading a program or opening a library initialises every object reachable through the lists of needed libraries exactly once, each after all those it needs, and loads nothing else; an object already loaded is not loaded again.", "quantifier": "all dependency graphs, all sequences of dlopen and dlclose", "why_tests_cant": "dependency graphs are unbounded, with sharing, cycles and several names of the same file", "anchors": ["src/ld_so/linker.rs:Linker::load_objects_recursive", "src/ld_so/linker.rs:Linker::load_object", "src/ld_so/linker.rs:Linker::run_init", "src/ld_so/linker.rs:Linker::load_library"]}
{"id": "C81", "title": "dlclose never unloads an object in use", "statement": "An object that belongs to the program, that has an open handle, or that an object in use was linked with, stays loaded, whatever is opened and closed; no dlopen and no dlclose of a handle panics; an object that is not in use any more is unloaded.", "quantifier": "all dependency graphs, all sequences of dlopen with all flags and of dlclose", "why_tests_cant": "lifetimes depend on the whole sequence of calls and on which libraries are shared between others", "anchors": ["src/ld_so/linker.rs:Linker::unload", "src/ld_so/linker.rs:Linker::load_library", "src/header/dlfcn/mod.rs:dlopen", "src/header/dlfcn/mod.rs:dlclose"]}
{"id": "C82", "title": "Destructors run once, in the reverse order", "statement": "The destructors of an object run once, when it is unloaded or at exit, never before its constructors, and before those of the objects it needs.", "quantifier": "all dependency graphs, all sequences of dlopen, dlclose and exit", "why_tests_cant": "the order matters only for some dependency graphs, and a destructor run twice needs a particular sequence of calls", "anchors": ["src/ld_so/linker.rs:Linker::unload", "src/ld_so/linker.rs:Linker::fini", "src/ld_so/linker.rs:Linker::run_init", "src/ld_so/dso.rs:DSO::run_fini"]}
{"id": "C83", "title": "Every thread has its own copy of every thread-local variable", "statement": "For each thread and each module with thread-local variables, __tls_get_addr gives the thread a block of the module's size and alignment, apart from the blocks of other modules and other threads, with the initial image followed by zeros when the thread first uses it, and at the same place from then on, whatever threads are created and libraries opened in between.", "quantifier": "all modules of the program, all sequences of thread creation, dlopen (also failing) and accesses by all threads", "why_tests_cant": "which block is used depends on the order in which threads are created and libraries are opened; tests have one library and one thread", "anchors": ["src/ld_so/tcb.rs", "src/header/dl-tls/mod.rs:__tls_get_addr", "src/ld_so/linker.rs:Linker::load_library", "src/ld_so/linker.rs:init_link"]}
{"id": "C84", "title": "Packed relative relocations adjust exactly the words they name", "statement": "Applying a DT_RELR table to an object loaded at some address adds the address to every word the table names by an address or a bit, once, and changes no other word; it succeeds if the words are mapped.", "quantifier": "all tables that begin with an address and name no word twice, all load addresses, all contents", "why_tests_cant": "a wrong stride or bit index shows only in tables with several bitmap words in a row", "anchors": ["src/ld_so/dso.rs:apply_relr"]}
{"id": "C85", "title": "Loaded segments have the contents and protections of the file", "statement": "Loading a well-formed object puts the bytes of each loadable segment at its address, followed by zeros up to its size in memory, and changes nothing outside the object's own mapping; afterwards the pages of each segment may be read, written and executed as its header says, and no page is both writable and executable.", "quantifier": "all files and lists of program headers with segments that do not overlap", "why_tests_cant": "program headers produced by one linker do not show what happens with other addresses, alignments or page sharing", "anchors": ["src/ld_so/dso.rs:DSO::mmap_and_copy", "src/ld_so/dso.rs:DSO::relocate"]}
{"id": "C86", "title": "Libraries are looked for in the documented places and order", "statement": "A library named with a slash is the file of that path and no other. Otherwise it is the first that exists among the directories of LD_LIBRARY_PATH, then the run path of the object that needs it, then /lib; if there is none the call fails.", "quantifier": "all names, all lists of directories, all contents of the file system", "why_tests_cant": "the order matters only if several copies exist; loading the wrong file is a security problem no functional test sees", "anchors": ["src/ld_so/linker.rs:Linker::search_object"]}
{"id": "C87", "title": "Users are found in the user database", "statement": "getpwnam and getpwuid give the first user of the database with the name or id, with all fields as the line has them, and NULL if there is none; getpwnam_r and getpwuid_r do the same with strings in the caller's buffer, return 0 or the error number (ERANGE if the buffer is too small) and write nothing outside the buffer; getpwent gives every user in order and then NULL, setpwent and endpwent go back to the first.", "quantifier": "all database files, names, ids, buffers, sequences of calls", "why_tests_cant": "the database of a test machine is well-formed and short; other lines, other buffer contents and the interplay of several lines are not seen", "anchors": ["src/header/pwd/mod.rs:getpwnam", "src/header/pwd/mod.rs:getpwuid", "src/header/pwd/mod.rs:getpwnam_r", "src/header/pwd/mod.rs:getpwuid_r", "src/header/pwd/mod.rs:getpwent", "src/header/pwd/linux.rs:split", "src/header/pwd/redox.rs:split"]}
{"id": "C88", "title": "Groups are found in the group database", "statement": "getgrgid and getgrnam give the first group of the database with the id or exactly that name, with a NULL-terminated array of pointers to its members, and NULL if there is none; the _r functions do the same in the caller's buffer, return 0 with a NULL result if there is none and ERANGE if the buffer is too small; getgrent gives every group in order; getgrouplist gives the groups a user is a member of and the group given.", "quantifier": "all database files, names, ids, buffers and their addresses, numbers of members, sequences of calls", "why_tests_cant": "names that begin with each other, long member lists and malformed lines are not in a test machine's database", "anchors": ["src/header/grp/mod.rs:getgrgid", "src/header/grp/mod.rs:getgrnam", "src/header/grp/mod.rs:getgrgid_r", "src/header/grp/mod.rs:getgrnam_r", "src/header/grp/mod.rs:getgrent", "src/header/grp/mod.rs:getgrouplist", "src/header/grp/mod.rs:initgroups"]}
{"id": "C89", "title": "Password entries are found by exact name", "statement": "getspnam and getspnam_r give the entry of exactly the name asked for, with its password and numbers (-1 for those left out), or none; getspnam_r keeps to the caller's buffer and returns ERANGE if it is too small; getspent gives every entry in order.", "quantifier": "all shadow files, names, buffers, sequences of calls", "why_tests_cant": "giving one user the password of another whose name begins the same way needs such a pair of names in the right order", "anchors": ["src/header/shadow/mod.rs:getspnam", "src/header/shadow/mod.rs:getspnam_r", "src/header/shadow/mod.rs:getspent"]}
{"id": "C90", "title": "inet_pton reads IPv6 addresses", "statement": "inet_pton with AF_INET6 returns 1 and stores the sixteen bytes for every text that is an IPv6 address (eight groups; :: for at least one group of zeros; the last two groups as a dotted quad), and 0 for every other text; it never writes outside the sixteen bytes, and for other address families it fails with EAFNOSUPPORT.", "quantifier": "all NUL-terminated strings, all memory contents", "why_tests_cant": "there are many forms and many near misses; whether the writes stay in bounds depends on the interplay of the counts of colons and dots", "anchors": ["src/header/arpa_inet/mod.rs:inet_pton"]}
{"id": "C91", "title": "Calendar conversions agree with the Gregorian calendar and with each other", "statement": "gmtime and localtime turn a number of seconds since the Epoch into a broken-down time that has every field in range, with the right day of the week and of the year, and whose value by the formula of POSIX is that moment (for localtime: shifted by the offset of the time zone, which is in tm_gmtoff, with tm_isdst positive exactly in daylight saving time). timegm and mktime go the other way: timegm returns the value of the formula, mktime a moment with that local time (of two, the one tm_isdst asks for), after bringing fields into range, and both fill in the rest of the structure. timegm undoes gmtime and mktime undoes localtime. difftime returns the difference.", "quantifier": "for all times and broken-down times; all time zones, given by their offset at every moment", "why_tests_cant": "There are 2^64 times; a mistake shows only at the end of February of some centuries, before the Epoch, at negative years or at the hour in which clocks change.", "anchors": ["src/header/time/mod.rs:347", "src/header/time/mod.rs:386", "src/header/time/mod.rs:409", "src/header/time/mod.rs:517", "src/header/time/mod.rs:537", "src/header/time/mod.rs:313"]}
{"id": "C92", "title": "asctime writes the 26 bytes of the standard and never more", "statement": "For a broken-down time with fields in their ranges and a year of four digits, asctime and asctime_r leave exactly the text of the standard (as in \"Sun Sep 16 01:03:52 1973\\n\") and its terminator in the buffer of 26 bytes. For any other fields the call aborts or leaves a string of at most 25 bytes there; no byte outside of the buffer is changed.", "quantifier": "for all broken-down times and buffers", "why_tests_cant": "A buffer overrun needs a combination of fields with as many digits as possible, and the fields are seven 32-bit integers.", "anchors": ["src/header/time/mod.rs:144", "src/header/time/constants.rs:17", "src/platform/mod.rs:187"]}
{"id": "C93", "title": "strftime writes what the format describes and stays within the buffer", "statement": "strftime writes the text that POSIX gives for the format in the POSIX locale: bytes stand for themselves, each conversion for its field, with the number of digits the standard says. If text and terminator fit in maxsize bytes, they are in the buffer and the length is returned, otherwise 0 is. Nothing outside the buffer is changed, whatever the format and the fields are, and the structure is not changed.", "quantifier": "for all formats, broken-down times and buffer sizes", "why_tests_cant": "Formats are arbitrary strings and the fields arbitrary integers; tests try a conversion on a few dates, while the mistakes depend on the year, the week or the length.", "anchors": ["src/header/time/mod.rs:486", "src/header/time/strftime.rs:49", "src/header/time/strftime.rs:293", "src/header/langinfo/mod.rs:204", "src/platform/mod.rs:145"]}
{"id": "C94", "title": "tzset takes names and offset from TZ", "statement": "After tzset, tzname, timezone and daylight are what TZ says: for a value of the form std offset [dst [offset] [,rule]] the two names, the offset in seconds west of UTC with its sign, and nonzero daylight exactly if there is a name for daylight saving time; for a name in the database of time zones the abbreviations and the offset of that zone. Whatever TZ contains, the call does not crash, and the names are never null pointers. Without TZ the system's default is used.", "quantifier": "for all values of TZ, time zone databases, targets of /etc/localtime and times of the call", "why_tests_cant": "TZ is an arbitrary string set by the user; tests use the zone of the machine they run on and do not try signs, minutes, rules and malformed values in combination.", "anchors": ["src/header/time/mod.rs:652", "src/header/time/mod.rs:736", "src/header/time/mod.rs:762", "src/header/time/posix_tz.rs:41", "src/header/time/posix_tz.rs:92", "src/header/time/posix_tz.rs:117"]}
{"id": "C95", "title": "strptime accepts exactly what the format describes", "statement": "If strptime returns a pointer, it points into the input (or at its end), the text in front of it is as the format describes, and the fields named by the format have the values of this text, within their ranges, while no other field changes. If the input begins with such a text, strptime accepts it. It never crashes, whatever the input is.", "quantifier": "for all inputs, formats and initial structures", "why_tests_cant": "Input comes from outside and may be any bytes; tests try well-formed dates, while the mistakes lie in out-of-range numbers, names that are prefixes, multi-byte characters and the order of conversions.", "anchors": ["src/header/time/strptime.rs:49", "src/header/time/strptime.rs:432", "src/header/time/strptime.rs:458", "src/header/time/strptime.rs:478", "src/header/time/strptime.rs:511"]}
{"id": "C96", "title": "strptime reads back what strftime writes", "statement": "If strftime writes a broken-down time with some format, strptime with the same format accepts this text to its end and gives back every field the format names.", "quantifier": "for all formats, broken-down times in range and buffers", "why_tests_cant": "The two functions have separate tables, ranges and digit counts; agreement on sample dates says nothing about other formats and dates.", "anchors": ["src/header/time/strptime.rs:49", "src/header/time/mod.rs:486", "src/header/time/strftime.rs:49"]}
{"id": "C97", "title": "glob finds exactly the matching pathnames", "statement": "glob returns in gl_pathv exactly the existing pathnames that match the pattern section by section, each once, sorted unless GLOB_NOSORT is given, with a slash after directories for GLOB_MARK, after the earlier ones for GLOB_APPEND or after gl_offs null pointers for GLOB_DOOFFS, ended by a null pointer, and counts them in gl_pathc; without any it returns GLOB_NOMATCH, or the pattern itself for GLOB_NOCHECK. globfree frees what glob has stored.", "quantifier": "for all file systems, patterns, flags and earlier contents of the glob_t", "why_tests_cant": "Tests run glob on one directory tree and a few patterns; soundness and completeness of the search over all trees of any depth, and all combinations of flags, are not reached by samples.", "anchors": ["src/header/glob/mod.rs:62-148", "src/header/glob/mod.rs:153-171", "src/header/glob/mod.rs:184-268", "src/header/glob/mod.rs:270-393"]}
{"id": "C98", "title": "Registered destructors run once, newest first, per object", "statement": "__cxa_finalize(dso) calls exactly the functions registered for that object by __cxa_atexit that have not been called yet, all of them for NULL, in the reverse order of registration, each with its argument, and none is ever called again; functions may register others, which are called too. Destructors of thread-local objects run at the end of their thread, newest first, each once.", "quantifier": "for all sequences of calls, objects and functions", "why_tests_cant": "A test registers two or three functions; order and at-most-once for any interleaving of registrations and finalizations of several objects are not reached by samples.", "anchors": ["src/cxa.rs:25-52", "src/cxa.rs:55-75", "src/cxa.rs:78-93"]}
{"id": "C99", "title": "Cleanup handlers form a stack that is run when the thread ends", "statement": "pthread_cleanup_pop removes the newest handler and calls it with its argument just if its parameter is not 0; when the thread ends, the handlers still pushed are called, newest first, each once.", "quantifier": "for all paired sequences of pushes and pops, stopped anywhere, and all positions of the entries in memory", "why_tests_cant": "The handlers are a linked list through stack frames; tests exit from one nesting, the property is about every prefix of every sequence.", "anchors": ["src/header/pthread/mod.rs:332-346", "src/header/pthread/mod.rs:348-359"]}
{"id": "C100", "title": "Fork handlers run around fork in their order", "statement": "fork calls the prepare handlers of pthread_atfork in the reverse order of registration before it, and in the order of registration the parent handlers in the parent and the child handlers in the child after it; after a failure no child handler is called. Handlers belong to the process, whichever thread registered them.", "quantifier": "for all sequences of registrations by all threads, and all outcomes of fork", "why_tests_cant": "Tests register one set of handlers in the main thread; the order among several and registration by other threads are not sampled.", "anchors": ["src/header/pthread/mod.rs:144-166", "src/header/unistd/mod.rs:466-481"]}
{"id": "C101", "title": "Attribute objects keep what was set", "statement": "After any sequence of calls the getter of each attribute of a thread, mutex, condition variable, read-write lock, barrier or spawn attributes object gives the value of the last accepted call of its setter, or the default; setters refuse the values that are not defined, with EINVAL or ENOTSUP, and then change nothing; no setter changes another attribute. A mutex made with an attributes object has its type and robustness.", "quantifier": "for all sequences of calls and all values", "why_tests_cant": "Tests set each attribute once to one value and read it back; that a setter never disturbs another attribute, for all values and orders, is not reached by samples.", "anchors": ["src/header/pthread/attr.rs:80-474", "src/header/pthread/mutex.rs:111-237", "src/header/pthread/cond.rs:229-322", "src/header/pthread/rwlock.rs:135-145", "src/header/pthread/barrier.rs:140-148", "src/header/spawn/spawn_attr.rs:59-386", "src/sync/pthread_mutex.rs:35-62"]}
{"id": "C102", "title": "Programs are found along PATH", "statement": "execvp executes a name with a slash as it is; otherwise it tries the directories of PATH in their order, an empty one being the working directory, and the process becomes the first of these files that can be executed; if there is none it returns -1 with ENOENT, or with the error of a file that was found. posix_spawnp finds the same program.", "quantifier": "for all values of PATH, names, and behaviours of the file system", "why_tests_cant": "Tests run with one PATH; that the first executable candidate is chosen, and the right error otherwise, for all lists of directories and all combinations of errors, is not sampled.", "anchors": ["src/header/unistd/path.rs:14-48", "src/header/unistd/mod.rs:386-414", "src/header/spawn/mod.rs:105-140"]}
{"id": "C103", "title": "execl passes exactly its arguments", "statement": "execl, execle and execlp give the new program an argument array of arg0, every further argument up to the null pointer in their order, and a null pointer, for any number of arguments below 4096; with more they fail with E2BIG and without memory with ENOMEM; execle takes its environment from the argument after the null pointer, and nothing beyond is read.", "quantifier": "for all numbers and values of arguments", "why_tests_cant": "Tests call execl with a few arguments; the switch from the stack to the heap at 32 and the limit are boundary cases of a property of all lengths.", "anchors": ["src/header/unistd/mod.rs:312-350", "src/header/unistd/mod.rs:1412-1457"]}
{"id": "C104", "title": "posix_spawn starts the program with the requested state", "statement": "posix_spawn performs the file actions in the order they were added on the descriptors and working directory of the child, with the strings given when they were added, opens the program from the resulting directory, and starts it with exactly the descriptors that are not FD_CLOEXEC, the given arguments and environment, and the signal mask, default signals, process group, scheduling and ids that the attributes ask for; the first error is returned, and then there is no child and *pid is unchanged.", "quantifier": "for all sequences of actions, tables of descriptors, attributes, arguments, and behaviours of the file system", "why_tests_cant": "The result depends on the interplay of actions, inherited flags and the working directory; tests use one or two actions.", "anchors": ["src/header/spawn/mod.rs:50-79", "src/header/spawn/file_actions.rs:141-272", "src/platform/redox/mod.rs:1203-1501"]}
{"id": "C105", "title": "A program is started with the arguments, environment and state given to exec", "statement": "The program started by exec is called as main(argc, argv, envp) with exactly the arguments and the environment strings given, in the same order, each vector ended by a null pointer and its strings contiguous in memory. It starts with the working directory, the ignored and the blocked signals, and the file mode creation mask of the old program. If there are too many strings for the stack, no program is started rather than one with some of them.", "quantifier": "for all lists of arguments and environment strings, working directories, masks, program headers and placements of the memory", "why_tests_cant": "The two ends are in different programs which only share a block of memory; tests run with few short strings, and a slip of one word shows only for particular counts", "anchors": ["redox-rt/src/proc.rs:283-440", "src/start.rs:12-70", "src/start.rs:108-238", "src/platform/mod.rs:286-418"]}
{"id": "C106", "title": "Scripts run under the interpreter named in their first line", "statement": "execve of a file whose first line is #! followed by the path of an interpreter and possibly an argument runs this interpreter with its path, the argument, the path of the script, and the caller's arguments from the second on, in the caller's environment. Any other program gets the caller's arguments unchanged. A file is run only if the caller has execute permission for it.", "quantifier": "for all first lines, file contents, argument lists and file permissions", "why_tests_cant": "There are too many shapes of first lines (blanks, tabs, missing newline, length limits) for tests, and the unit tests in the file are not run on the target", "anchors": ["src/platform/redox/exec.rs:76-268", "src/platform/redox/exec.rs:281-425"]}
{"id": "C107", "title": "Descriptor numbers: lowest free, never shared, flags kept", "statement": "On Redox the numbers of file descriptors are managed inside the process (`FdTbl`). After any sequence of operations on the table: a new descriptor gets the lowest number that is not open; several descriptors made together get the lowest free numbers in order, or a block of free ones; numbers asked for explicitly are given only if they are distinct and free; dup2's target becomes open with a clear close-on-exec flag; removing frees exactly that number; every other descriptor keeps its number and its flag. An operation fails only because the table is full, a number is in use, not open or out of range, or the kernel refuses to grow its table, and then changes nothing. The iterator used by exec lists every open descriptor exactly once with its flag, and no operation panics.", "quantifier": "all sequences of operations on the table, all numbers, counts and flags, all answers of the kernel to a request for a larger table", "why_tests_cant": "The table keeps three redundant summaries (lowest free index, free list with a sentinel, counters); an error shows only after particular sequences of opening, closing and bulk operations.", "anchors": ["redox-rt/src/sys.rs:919-1248", "redox-rt/src/sys.rs:1250-1580", "redox-rt/src/sys.rs:1591-1924", "redox-rt/src/sys.rs:1926-2007"]}
{"id": "C108", "title": "Descriptors refer to what was opened; the two tables agree", "statement": "open, dup, dup2, fcntl(F_DUPFD, F_GETFD, F_SETFD), close, and exec keep the table of descriptors in the process in step with that of the kernel. A successful call changes only the descriptor it is about, which then refers to the file opened or duplicated and has the flag asked for; a failing call changes nothing; dup2 of a descriptor to itself changes nothing; F_DUPFD gives the lowest free number not below its argument; exec closes exactly the descriptors marked close-on-exec. With several threads at work, a new descriptor never takes the place of an open one.", "quantifier": "all states of the tables, all descriptors and flags, all results of the system calls, all interleavings of threads", "why_tests_cant": "Reservation, system call and release are separate steps, so the damage done by an error path or a race appears only in a later, unrelated call that receives a number still in use.", "anchors": ["redox-rt/src/sys.rs:585-684", "redox-rt/src/sys.rs:749-906", "redox-rt/src/proc.rs:488-529", "src/platform/redox/mod.rs:331-440"]}
{"id": "C109", "title": "Working directory", "statement": "On Redox, chdir succeeds exactly if the name names a directory whose full name has at most PATH_MAX bytes, and then that directory is the working directory, under its full name; on any error the working directory stays what it was. getcwd gives the full name with its NUL if both fit into the buffer, else ERANGE; it writes only into the buffer, or into the memory it allocates. fchdir makes the open directory the working directory, and fails for a file that is not a directory.", "quantifier": "all names, all behaviours of the kernel and of the name functions, all sequences of calls, all buffers and memory contents", "why_tests_cant": "it concerns the state after failures at every point of the call, all lengths around the size of the buffer, and every byte of memory", "anchors": ["src/platform/redox/path.rs:27-126", "src/header/unistd/mod.rs:499-531"]}
{"id": "C110", "title": "Symbolic links between schemes", "statement": "On Redox, opening a name which is a symbolic link opens the file to which the chain of links leads; a full name in a link is taken as it is, a relative one starts in the directory in which the link is. If a chain has more than SYMLOOP_MAX links, the result is ELOOP; opening always comes to an end. An error at the last name is the error of the call.", "quantifier": "all trees of links, finite or circular, all working directories, for open and openat", "why_tests_cant": "chains of any length and circular ones; which directory a relative link starts from shows only in particular trees", "anchors": ["src/platform/redox/path.rs:142-289", "src/platform/redox/path.rs:345-379"]}
{"id": "C111", "title": "Shared buffers of redox_ring", "statement": "Buffers which redox_ring_alloc_buf or redox_ring_alloc_sized has given out and which are not freed lie inside the shared pool, are as large as asked for, and do not overlap; a request fails exactly if no buffer is left. A buffer freed by its offset or by its address, and no other, can be given out again. A queue has the largest power of two of entries that fits into its shared memory behind the header.", "quantifier": "all sequences of requests and releases, all pool, buffer and memory sizes", "why_tests_cant": "overlap appears only after particular sequences of requests and releases; sizes near the machine limits cannot be tried", "anchors": ["src/platform/redox/ring.rs:41-153", "src/platform/redox/ring.rs:180-353", "src/platform/redox/ring.rs:605-646", "src/header/redox_ring/mod.rs:120-147"]}
{"id": "C112", "title": "Timers and alarms", "statement": "On Redox, a timer armed with timer_settime (or alarm) notifies once, not before the time it was armed for, and does so when the time has come; with an interval it then goes on, one interval after the other. Arming it again replaces the earlier time; disarming it (or alarm(0)) or deleting it ends the notifications. timer_gettime tells the time that is left, 0 for a timer that is off; alarm returns the seconds that were left, rounded up. Every signal of the system can be chosen.", "quantifier": "all sequences of calls, all times and intervals, all interleavings of the program, the timer's thread and the kernel's wake-ups", "why_tests_cant": "the timer's thread, wake-ups that cannot be withdrawn, and calls interleave; wrong notifications come from a wake-up of an earlier arming", "anchors": ["src/platform/redox/mod.rs:1521-1649", "src/platform/redox/timer.rs:27-173", "src/header/unistd/alarm.rs:33-88"]}
{"id": "C113", "title": "Messages with descriptors: what sendmsg sends and recvmsg delivers", "statement": "On Redox, sendmsg hands the scheme of the socket the bytes of the buffers of msg_iov in order, gives it exactly the descriptors of the SCM_RIGHTS control messages in order, and returns the number of payload bytes. recvmsg stores the payload in the buffers in order (cut off at their size, then MSG_TRUNC), stores the control messages so that CMSG_FIRSTHDR/CMSG_NXTHDR find exactly them, with the descriptors received, sets msg_controllen to the room they take, sets MSG_CTRUNC if some did not fit (whose descriptors are then closed), writes nothing outside the buffers, and a failed sendmsg has given away nothing. A destination in msg_name is used.", "quantifier": "all memories, all lists of buffers and control messages, all payloads and names, all schemes (arbitrary state machines), all flags", "why_tests_cant": "Messages are an unbounded combination of buffers, alignments and control messages; descriptor leaks and overruns are invisible to tests that only look at the bytes received.", "anchors": ["src/platform/redox/socket.rs: sendmsg, recvmsg, serialize_payload_to_stream, serialize_ancillary_data_to_stream, deserialize_name_from_stream, deserialize_payload_from_stream, deserialize_ancillary_data_from_stream", "src/header/sys_socket/mod.rs: CMSG_ALIGN, CMSG_SPACE, CMSG_LEN, CMSG_FIRSTHDR, CMSG_NXTHDR"]}
{"id": "C114", "title": "Socket addresses: what bind and connect name, what getsockname and getpeername report", "statement": "On Redox, bind and connect with an AF_INET address of the right length name exactly this address and port to the scheme and install the resulting socket under the same descriptor number; other lengths and families give EINVAL or EAFNOSUPPORT and leave the descriptors alone; getsockname/getpeername/accept store the address which the name of the socket contains, so the address given to bind is the one getsockname reports; at most *address_len bytes are written and *address_len becomes the true length; for Unix sockets the name is sun_path up to the NUL or the length given.", "quantifier": "all addresses, ports and lengths, all memories, all descriptor tables, all answers of the kernel", "why_tests_cant": "2^48 addresses and ports, every buffer length and every name in the scheme; an overflow of the caller's buffer needs a name longer than the tests use.", "anchors": ["src/platform/redox/socket.rs: bind_or_connect, bind_or_connect_into, inner_af_unix, inner_af_inet, inner_get_name_inner, accept, bind, connect, getpeername, getsockname"]}
{"id": "C115", "title": "pthread_create: the memory of a thread", "statement": "pthread_create gives the new thread a stack of at least the requested size and a control block in memory nobody else has (or exactly the stack the caller supplied, and nothing outside it), hands it the start routine, argument and control block, and leaves all other memory as it was; on error it returns EAGAIN or ENOMEM and no memory is lost or taken away from the caller; after the thread has ended (and been joined, if joinable) exactly what was mapped before is mapped; the guard size is honoured; a stack supplied by the caller stays the caller's.", "quantifier": "all address spaces, attributes, arguments, sizes of thread-local storage, all answers of the kernel", "why_tests_cant": "Leaks and overruns depend on failures of the kernel and on stack sizes that tests do not use, and are not visible in results.", "anchors": ["src/pthread/mod.rs: create, join, exit_current_thread, dealloc_thread", "src/ld_so/tcb.rs: Tcb::new, os_new, map"]}
{"id": "C116", "title": "C11 threads: results of mtx_*, cnd_timedwait, thrd_create and thrd_join", "statement": "A mutex made with mtx_recursive can be locked n times by its owner and is free again after n unlocks; others can be locked once; success is reported exactly if the caller has the mutex; mtx_trylock of a held mutex reports thrd_busy, mtx_timedlock and cnd_timedwait report thrd_timedout if and only if the time is over, thrd_create reports thrd_nomem if memory is missing; thrd_join stores the int the thread returned, and nothing else; errno is not set to 0; thrd_sleep sleeps.", "quantifier": "all mutex states, all numbers of locks below 2^32, all interleavings of other threads (as sequences of what a waiting thread sees), all deadlines and clocks, all answers of the kernel", "why_tests_cant": "The busy and timeout results depend on timing; a recursion depth and the bytes behind an int are not exercised by tests.", "anchors": ["src/header/threads/mod.rs", "src/sync/pthread_mutex.rs: try_lock, lock_inner, unlock", "src/sync/cond.rs: clockwait, wait_inner_generic"]}
{"id": "C117", "title": "Sockets, pairs of sockets, sendto, recvfrom and options on Redox", "statement": "On Redox socket(domain, type | SOCK_NONBLOCK | SOCK_CLOEXEC, protocol) opens the scheme for the domain and the type and gives a new descriptor with the flags asked for; other domains and types are refused. socketpair gives two new descriptors connected to each other, closes the one it needs in between, and on failure leaves the descriptors as they were. sendto sends the bytes of the buffer to the destination, leaves the descriptors as they were, and raises SIGPIPE exactly if the result is EPIPE, the socket is a stream and MSG_NOSIGNAL is not given. recvfrom stores the datagram, and the address of the sender as far as there is room, and nothing else. getsockopt gives domain and type, setsockopt sets the time limits (microseconds as nanoseconds), and invalid arguments are refused.", "quantifier": "for all states of the process, behaviours of the kernel and of the schemes, flags, addresses, buffers and option values", "why_tests_cant": "tests run with one scheme each and see neither which object the bytes went to nor which descriptors stay open after a failure in the middle; flags, destinations and failures multiply", "anchors": ["src/platform/redox/socket.rs:205-234", "src/platform/redox/socket.rs:732-850", "src/platform/redox/socket.rs:991-1190"]}
{"id": "C118", "title": "User and group ids on Redox", "statement": "setresuid and setresgid ask the process manager for exactly the ids whose arguments are not -1; another negative argument is EINVAL; a failed call changes nothing, a successful one sets the ids asked for and no others. The ids getuid, geteuid, getresuid, getgid, getegid and getresgid report are the ones the process has, after any calls, including posix_spawn. setuid by a privileged process sets all three user ids, so that the privileges cannot be taken back; by another process it sets only the effective one; setreuid sets the saved id to the new effective id if the real id is given.", "quantifier": "all ids, all arguments, all answers of the process manager, all sequences of calls", "why_tests_cant": "the ids are kept twice, at the process manager and in the process; a test sees only the copy unless it makes another process look; whether privileges can be regained depends on an id that few programs read", "anchors": ["src/platform/redox/mod.rs:1173-1201", "redox-rt/src/sys.rs:424-492", "src/header/unistd/mod.rs:1066-1167", "src/platform/redox/mod.rs:1433-1457"]}
{"id": "C119", "title": "Nice values on Redox", "statement": "getpriority gives the nice value of a process, which may be negative, and sets errno only if the kernel refuses; after setpriority it is the value asked for, brought into the range from -20 to 19; nice adds its argument without overflow, brings the result into the range, gives it and makes it the nice value; a refused request changes nothing. Targets other than processes are EINVAL.", "quantifier": "all nice values, all arguments, all answers of the kernel", "why_tests_cant": "the value goes through two conversions with different offsets in each direction; a result of -1 is both an error and a nice value; overflow needs extreme arguments", "anchors": ["src/platform/redox/mod.rs:645-653", "src/platform/redox/mod.rs:1159-1168", "src/header/sys_resource/mod.rs:191-212", "src/header/unistd/mod.rs:864-883"]}
{"id": "C120", "title": "Record locks on Redox", "statement": "fcntl with F_SETLK or F_OFD_SETLK asks the file system to lock or unlock exactly the bytes that l_whence, l_start and l_len describe (a length of 0 is the rest of the file, a negative one the bytes before), shared or exclusive, for the process or the open file description; invalid sections and types are EINVAL and nothing is asked. F_GETLK reports the first lock in the way with its kind, place, length and owner, or changes only l_type. lockf locks the section that begins at the position in the file, and F_LOCK waits for it.", "quantifier": "all offsets and lengths, all kinds of locks, all answers of the file system", "why_tests_cant": "two processes are needed to see which bytes a lock covers; tests lock whole files from the beginning; overflow needs extreme numbers", "anchors": ["src/platform/redox/mod.rs:330-437", "src/platform/redox/mod.rs:1838-1867", "src/header/unistd/mod.rs:822-854"]}
{"id": "C121", "title": "Waiting for children on Redox", "statement": "waitpid asks the process manager for the children its argument describes and gives the first one whose change of state was asked for, with its status; stops are reported only with WUNTRACED or to a tracer; with WNOHANG it returns at once. The macros of sys/wait.h tell apart exit, signal, stop and continuation, never two of them, and WEXITSTATUS is the low byte of the argument of exit.", "quantifier": "all process ids, options, statuses and sequences of answers of the process manager", "why_tests_cant": "children that stop at the right moment are a matter of timing; a call that never returns needs a particular sequence of answers", "anchors": ["src/platform/redox/mod.rs:1746-1807", "redox-rt/src/sys.rs:350-377", "src/header/sys_wait/cbindgen.toml:14-28"]}
{"id": "C122", "title": "system and popen", "statement": "system and popen run the shell without a trace in the caller: buffered output of the caller is written once; popen leaves exactly one new descriptor in the caller, none if it fails; the shell has its end of the pipe as standard input or output, also if that was closed in the caller, and no end of pipes of earlier calls of popen, so that pclose, which closes the stream and waits, lets the shell see the end of its input.", "quantifier": "all tables of descriptors, all modes, all outcomes of pipe, fork and exec", "why_tests_cant": "failing fork or exec, closed standard streams and several shells at the same time are combinations that tests of one call do not make; a wait that never ends is a hanging test", "anchors": ["src/header/stdio/mod.rs:1057-1189", "src/header/stdlib/mod.rs:1618-1656"]}
{"id": "C123", "title": "New files, their permissions, access on Redox", "statement": "open with O_CREAT, mkdir, mkfifo and mknod create a file of the right kind with the permissions asked for without those in the file mode creation mask, which belongs to the effective ids, and leave every other file as it was; if there is a file of that name, mkdir, mkfifo, mknod, symlink and open with O_EXCL fail with EEXIST and change nothing. symlink creates a link with exactly the given text. umask gives the old mask and sets the new one. utimensat changes the time of the file named, of the link itself with AT_SYMLINK_NOFOLLOW. access succeeds exactly if the class of permissions that applies to the real ids (effective with AT_EACCESS) has all that is asked for, and otherwise fails with EACCES.", "quantifier": "all modes, masks, flags, ids and states of the file system", "why_tests_cant": "all combinations of mode, mask, kind of file and flag would have to be tried; permissions that are too wide do not make a test fail; a file that is overwritten must have been there before", "anchors": ["src/platform/redox/mod.rs:106-149", "src/platform/redox/mod.rs:794-816", "src/platform/redox/mod.rs:952-965", "src/platform/redox/mod.rs:1503-1515", "src/platform/redox/mod.rs:1651-1654", "src/header/sys_stat/mod.rs:260-275", "src/platform/redox/libredox.rs:20-50"]}
{"id": "C124", "title": "strfmon formats amounts of money", "statement": "strfmon writes the characters of the format as they are, %% as a percent sign and every %n and %i as the amount rounded to the nearest unit of the last place, with the sign, the symbol (not with !), groups of three digits counted from the decimal point and the given number of digits after the point, filled to the width, then a NUL byte. The flags = ^ ( + - and the left precision have the effect POSIX describes. The result is the number of bytes before the NUL, -1 if it does not fit or the format is wrong; nothing outside the buffer is written.", "quantifier": "all formats, all finite amounts, all buffer sizes", "why_tests_cant": "the rounding of every value, the carry into the whole part and all lengths of the whole part; tests use small amounts, where there is one group only", "anchors": ["src/header/monetary/strfmon.rs:18-325", "src/header/monetary/mod.rs:35-89"]}
{"id": "C125", "title": "Hosts looked up through DNS", "statement": "Looking up an address written in decimal dotted notation yields that address without traffic. Looking up a host name sends one question, for that name, to the server named in the configuration, and yields the addresses of the answer to it in their order; looking up an address asks for the reversed address under in-addr.arpa and yields the names of the answer. Failures are reported as errors; nothing stays open; an answer to another question is not accepted; no answer makes the caller crash or wait for ever.", "quantifier": "for all host names, addresses, configurations, failures of the socket calls and answers", "why_tests_cant": "Needs all possible answers of a server, including lost, forged and malformed ones; tests see one server.", "anchors": ["src/header/netdb/lookup.rs:31-270"]}
{"id": "C126", "title": "getaddrinfo and getnameinfo", "statement": "getaddrinfo yields one entry for every address of the host, in order, with the port of the service in network order and the socket type asked for; an address in dotted notation needs no traffic, no host means the wildcard or the loopback address, AI_NUMERICHOST never asks a server, AI_CANONNAME gives the first entry the name; failures are reported by their codes with no list, and freeaddrinfo frees everything allocated. getnameinfo writes the name, or the numeric forms, with a NUL, never beyond the buffers, and is the inverse of getaddrinfo for numeric forms; hints that cannot be met and unknown services are errors.", "quantifier": "for all hosts, services, hints, flags, buffers and behaviours of the name server", "why_tests_cant": "Needs all combinations of flags, buffers and server behaviour; a test sees a few hosts on one network.", "anchors": ["src/header/netdb/mod.rs:837-1065"]}
{"id": "C127", "title": "strtod and strtof convert texts to the nearest number", "statement": "strtod and strtof skip white space, take a sign and the longest text of a number behind it, set the end pointer to what follows it, and yield the number of the format nearest to its value: integers that fit are exact, hexadecimal numbers are exact, inf and nan are recognised, too large values yield infinity and too small ones zero. If there is no number the end pointer is the beginning.", "quantifier": "for all texts: any white space, sign, digits, fractions, exponents and following text; for both formats", "why_tests_cant": "There are infinitely many texts and the rounding errors add up over all digits; tests use a few numbers.", "anchors": ["src/macros.rs:320-444", "src/header/stdlib/mod.rs:1512-1524"]}
{"id": "C128", "title": "printf %f is correctly rounded", "statement": "The f conversion of printf prints a minus sign if the number is negative, and the decimal with the requested number of digits behind the point (six by default) that is nearest to the value of the double, the even one of two; the point appears if there are digits behind it or the flag # is given. The text is placed in the field as ISO C says: width, flags - and 0, + and space. Infinities and NaNs are printed as inf and nan, padded with spaces. An integer below 2^53 printed with %.0f is converted back to the same number by strtod.", "quantifier": "for all finite doubles, infinities and NaNs, all precisions, widths and flags", "why_tests_cant": "There are 2^64 doubles and unboundedly many precisions; rounding ties and long expansions need exact arithmetic, which a test would have to take from another printf.", "anchors": ["src/header/stdio/printf.rs:450-478", "src/header/stdio/printf.rs:532-594", "src/header/stdio/printf.rs:996-1013"]}
{"id": "C129", "title": "printf %e: mantissa and exponent", "statement": "The e conversion of printf prints a mantissa of at least 1 and less than 10 (0 for zero) with the requested number of digits behind the point, the letter e or E, a sign, and the decimal exponent with at least two digits; mantissa times ten to the exponent is the number, correctly rounded to the digits printed. The text is placed in the field as ISO C says.", "quantifier": "for all finite doubles, all precisions, widths and flags", "why_tests_cant": "The exponent is found by repeated division or multiplication, each with a rounding error; how the errors add up, and whether the loops end for every double, cannot be seen from samples.", "anchors": ["src/header/stdio/printf.rs:480-530", "src/header/stdio/printf.rs:977-995"]}
{"id": "C130", "title": "printf %g chooses between %f and %e", "statement": "The g conversion of printf with precision P (0 taken as 1) prints a number whose e conversion would have the exponent X like %f with P-1-X digits if -4 <= X < P, and like %e with P-1 digits otherwise; zeros at the end of the fraction, and then the point, are removed unless the flag # is given.", "quantifier": "for all finite doubles, all precisions, widths and flags", "why_tests_cant": "The choice depends on the exponent after rounding, which goes wrong only near powers of ten.", "anchors": ["src/header/stdio/printf.rs:450-478", "src/header/stdio/printf.rs:1014-1052"]}
{"id": "C131", "title": "A temporary file is new, private and the caller's own", "statement": "mkstemp, mkstemps, mkostemp and mkostemps replace exactly the six X of the template (before the suffix) with letters or digits and change no other byte of memory. If they succeed, no file of the resulting name existed at the moment of creation, whatever other processes do between the tries, the file has been made with mode 0600 less the umask, and the new descriptor is open for reading and writing with the caller's other flags; otherwise no file and no descriptor remain. They fail only if the template is wrong (EINVAL, nothing changed) or each of 100 names was taken or refused, and then errno tells why. mkdtemp does the same with a directory of mode 0700. mktemp, tmpnam and tempnam give a name that was free during the call, in the directory that is documented, and write only into the buffer (L_tmpnam bytes for tmpnam, the allocated block for tempnam). tmpfile leaves no name behind, and no descriptor if it fails.", "quantifier": "for all templates, suffix lengths, flags, umasks, file systems, interleavings with other processes, errors of the system calls and random choices", "why_tests_cant": "the guarantee is about races with other processes between tries and about memory next to the buffer; a test sees one schedule and one random draw", "anchors": ["src/header/stdlib/mod.rs:758-885", "src/header/stdio/mod.rs:1400-1518", "src/header/stdio/constants.rs:39-46"]}
{"id": "C132", "title": "fopen, fdopen and freopen open the stream the mode says", "statement": "fopen with a mode beginning with r, w or a (then any of b, +, x, e) opens the named file for reading, writing or both as ISO C says: r needs an old file and keeps it, w empties it, a keeps it and appends, w and a make a new file with mode 0666 less the umask, x refuses an old one, e closes the descriptor on exec; the stream starts at the beginning without pending bytes or indicators. Any other mode is EINVAL. On failure nothing has changed and no descriptor is left open. fdopen changes nothing but the append and close-on-exec flags. freopen writes what is pending, then gives the same stream the file and mode that fopen would have given, with indicators and buffers cleared, and leaves no other descriptor open; if it fails the stream is closed.", "quantifier": "for all modes, names, file systems, descriptor tables, umasks and errors", "why_tests_cant": "the interplay of eight mode letters with existing and missing files, the descriptor table and the buffers has too many combinations to sample", "anchors": ["src/header/stdio/helpers.rs:25-94", "src/header/stdio/mod.rs:509-513", "src/header/stdio/mod.rs:680-714", "src/header/stdio/mod.rs:791-848"]}
{"id": "C133", "title": "The signal functions of System V", "statement": "However sighold, sigrelse, sigignore and sigset are called after the start of a program, and whatever signals arrive meanwhile, each call answers according to the dispositions set and the signals held so far: sigset gives SIG_HOLD if the signal was held and the previous disposition otherwise, sets the disposition and releases the signal, or with SIG_HOLD holds it and leaves the disposition alone; a call fails exactly for a number which is not a signal's, or if the disposition of SIGKILL or SIGSTOP was to be changed, and then changes nothing; the signals blocked are exactly those held (SIGKILL, SIGSTOP and the two signals the library uses itself cannot be held). sigpause waits with the mask without the signal, and afterwards the mask is what it was and no signal is lost.", "quantifier": "for all sequences of calls, all signal numbers and handlers, all interleavings with signals sent by others", "why_tests_cant": "The mask and the pending signals share words with concurrent senders; what sigset answers depends on the whole history of calls.", "anchors": ["src/header/signal/mod.rs:429-735", "src/platform/redox/signal.rs:96-254", "redox-rt/src/signal.rs:313-531"]}
{"id": "C134", "title": "Sending signals", "statement": "kill, killpg, raise, pthread_kill and sigqueue ask the process manager for exactly what was asked for, once: the given signal for the process, the process group (killpg of g is kill of -g), the calling thread, the given thread, and for sigqueue the value; numbers that are not signals' are refused with EINVAL without any request, for sigqueue processes that are none with ESRCH; the answer is reported (pthread_kill returns the error, the others return -1 and set errno), and if the answer says that a signal has arrived for the caller it is handled before the call returns, and the call succeeds.", "quantifier": "for all signal numbers, process numbers, values and answers of the process manager", "why_tests_cant": "The numbers pass through conversions between widths and signs; nothing bounds them in a test.", "anchors": ["src/header/signal/mod.rs:210-287", "src/platform/redox/signal.rs:66-89", "src/platform/redox/mod.rs:1040-1048", "redox-rt/src/sys.rs:28-103", "redox-rt/src/sys.rs:378-394"]}
{"id": "C135", "title": "scandir gives each wanted entry of a directory once, sorted", "statement": "scandir(dir, &list, filter, compare): list has a copy of exactly those entries of the directory which the filter wants (all, without a filter), each once, and the value returned is their number; they are in the order of compare if that is an order (with alphasort: by the bytes of the names), in the order of the directory without compare; errno is as before, and the directory is closed again. On an error -1 is returned with errno set, nothing is stored, and nothing stays open. No memory outside the directory's buffer is read, and a filter may call anything.", "quantifier": "for all directories (records of any lengths, in any order), any pieces in which the kernel gives them, all filters and comparison functions, both platforms", "why_tests_cant": "A test sees one directory; which memory is read behind the buffer depends on the lengths of the entries before, and the failures of the allocator cannot be arranged.", "anchors": ["src/header/dirent/mod.rs:216-218", "src/header/dirent/mod.rs:303-378", "src/c_vec.rs:87-109"]}
{"id": "C136", "title": "getsubopt splits options at commas and finds their keys and values", "statement": "Repeated calls of getsubopt(&p, keys, &value) on a string of options with commas between them take the options one after the other. For each, the value returned is the number of the first key such that the option is the key itself (value: null) or the key, '=' and a value (value: that text); if there is none, -1 is returned with value pointing to the whole option. Only commas of the string are overwritten, p ends at the end of the string, and all values are still valid strings then.", "quantifier": "for all lists of options and keys (also keys that are prefixes of each other, empty ones, options with several '='), all memory", "why_tests_cant": "Prefixes, empty options and the interplay of successive calls through memory give unboundedly many cases.", "anchors": ["src/header/stdlib/mod.rs:466-516"]}
{"id": "C137", "title": "syslog delivers the messages the mask selects", "statement": "A message given to syslog reaches the system log if and only if its severity is in the mask last set by setlogmask (all severities at first), whatever its facility; records arrive in the order of the calls, each with the priority, the identity last set by openlog (by default the program's name), the process id with LOG_PID, and the formatted text; with LOG_PERROR the text is also printed on standard error; the facility given to openlog applies to messages without one; setlogmask returns the previous mask; nothing is lost by closelog or at the end of the process.", "quantifier": "all sequences of openlog, setlogmask, closelog and syslog calls, all priorities, identities, texts, and all ways the log accepts writes (short writes included)", "why_tests_cant": "Depends on histories of calls, on the contents of a write buffer across calls and on every combination of priority and mask bits; tests look at single messages.", "anchors": ["src/header/sys_syslog/mod.rs", "src/header/sys_syslog/logger.rs", "src/header/sys_syslog/redox.rs", "src/io/buffered.rs"]}
{"id": "C138", "title": "fmtmsg writes what was asked for and reports what it could not write", "statement": "fmtmsg writes to standard error, if MM_PRINT is set, exactly those components (label, severity, text, action, tag, each with its punctuation, in this order) that are given and that MSGVERB selects: MSGVERB selects the components whose keywords it lists, and all of them if it is unset, empty or not such a list. To the console, if MM_CONSOLE is set, it writes all the components given, whatever MSGVERB is. The value is MM_OK, MM_NOMSG, MM_NOCON or MM_NOTOK according to which of the outputs asked for failed. No descriptor stays open and the cancelability of the thread is as before.", "quantifier": "All arguments, all values of MSGVERB, all failures of the two outputs.", "why_tests_cant": "MSGVERB ranges over all strings, and the failing outputs over all combinations.", "anchors": ["src/header/fmtmsg/mod.rs"]}
{"id": "C139", "title": "System V shared memory segments are shared, whole and separate", "statement": "A segment made by shmget is zero and has the size asked for. Every shmat of its identifier gives an address at which all its bytes can be read and written, apart from every other attached segment; a byte written through one address is read through every other address of the segment, and no other byte changes. shmdt detaches exactly the attachment at its address, and IPC_RMID removes the identifier while attached memory stays usable. The segment belongs to its key: another shmget with the key finds it, IPC_CREAT with IPC_EXCL refuses it, and a failing shmget leaves nothing behind; SHM_RDONLY gives read access.", "quantifier": "All sequences of shmget, shmat, shmdt, shmctl, loads and stores of a program; all sizes, keys and addresses the kernel may choose.", "why_tests_cant": "The effect of a store depends on the whole history of attachments and on where the kernel puts them.", "anchors": ["src/header/sys_shm/mod.rs"]}
{"id": "C140", "title": "Wide-character input and output transfer exactly the encodings", "statement": "fgetwc takes from a stream exactly the bytes that encode the next character and returns that character; fgetws stores the next line, at most n-1 characters, ends it with a null character and takes just those bytes; fputwc and fputws append the encoding of the characters; ungetwc gives back a character that is read next; end of file, errors of the kernel and bytes that encode nothing are reported as WEOF with the matching indicator; a stream used with these functions is wide-oriented, and a wide-oriented stream works with them", "quantifier": "all streams, buffers and kernels (short reads, interruptions, errors), all Unicode scalar values and texts, all byte sequences", "why_tests_cant": "The functions sit on byte functions that check for the opposite orientation and on decoders that are called with a partly filled buffer; tests use valid text on fresh streams and look at the characters only", "anchors": ["src/header/wchar/mod.rs:66-182", "src/header/wchar/mod.rs:351-378", "src/header/stdio/mod.rs:337-365"]}
{"id": "C141", "title": "gethostbyname and gethostbyaddr", "statement": "gethostbyname finds a host by its name or an alias, ignoring case, in the hosts file, and otherwise by one query to the name server, and returns its name, aliases and address as readable C strings and arrays; gethostbyaddr does the same for an address; a host given by its address is that address; unknown hosts give HOST_NOT_FOUND, failures of the server NO_RECOVERY; only hosts of the kind asked for are returned", "quantifier": "all contents of the hosts file, all names and addresses, all answers and failures of the name server, all ways the kernel delivers the file", "why_tests_cant": "The results depend on a file, a network and what memory held before; tests run with one hosts file and never see freed or unterminated memory fail", "anchors": ["src/header/netdb/mod.rs:227-424", "src/header/netdb/host.rs"]}
{"id": "C142", "title": "Pseudo-terminals and terminal modes", "statement": "`openpty` returns the manager of a pseudo-terminal and its terminal, both open and nothing else new, and the terminal's name; when any step fails no descriptor stays open. `forkpty` gives the child the terminal as standard input, output and error and nothing else new, the parent only the manager and the process, and puts signal mask and cancellation state back on every path; on failure everything is as before the call. `ptsname_r` and `ttyname_r` store the name if it fits and otherwise report a positive error number without storing anything that cannot be used. `cfmakeraw` changes exactly the modes that make a terminal raw. A speed set can be read back, and what is no speed is refused. `tcsetpgrp` returns 0 on success.", "quantifier": "all answers of the kernel at every step, all descriptor tables, all buffers and buffer sizes, all terminal numbers, all modes and control characters, all speeds and actions", "why_tests_cant": "The failures in the middle (unlocking, opening the terminal, the pipe, fork, the child's terminal) cannot be brought about one by one in a unit test; what is left open shows only as a leak.", "anchors": ["src/header/pty/mod.rs:19", "src/header/pty/mod.rs:60", "src/header/pty/mod.rs:94", "src/header/utmp/mod.rs:13", "src/header/stdlib/mod.rs:996", "src/header/unistd/mod.rs:1274", "src/header/unistd/mod.rs:1312", "src/header/termios/mod.rs:116", "src/header/termios/mod.rs:209", "src/header/termios/mod.rs:373"]}
{"id": "C143", "title": "Wide character classes and cases agree with each other", "statement": "For every wint_t the wide character classification and case functions answer without fault. towlower and towupper are idempotent; iswupper holds exactly of what towlower changes and iswlower exactly of what towupper changes, and the result of a change is a letter of the other case. Upper and lower case letters are letters; letters, digits and punctuation are pairwise disjoint, can be printed, and are neither controls nor white space; no control can be printed; blanks are spaces, digits hexadecimal digits, hexadecimal digits alphanumeric. ASCII is classified as in the C locale. Surrogates, numbers above U+10FFFF (WEOF among them) and the last two code points of each plane are in no class and unchanged by the case functions. iswctype(wc, wctype(name)) is the function of that name. wcscasecmp and wcsncasecmp give the difference at the first position where the strings in lower case differ.", "quantifier": "for all 2^32 values of wint_t, all names, all wide strings of characters below 2^31", "why_tests_cant": "The answers come from compressed tables of some thousands of bytes and a binary search in a table of exceptions; a wrong entry or offset concerns one character in a million.", "anchors": ["src/header/wctype/mod.rs:1-240", "src/header/wctype/alpha.rs:7", "src/header/wctype/punct.rs:7", "src/header/wctype/casecmp.rs:358", "src/header/wchar/mod.rs:1095", "src/header/wchar/mod.rs:1111"]}
{"id": "C144", "title": "Locales: setlocale, uselocale, newlocale, duplocale, localeconv", "statement": "localeconv describes the locale the calling thread uses: its own, if uselocale set one, and otherwise the global one, which is the C locale (decimal point '.') until setlocale changes it. setlocale changes exactly the fields of the category, returns the name, and a query returns it again; a call that fails changes nothing. uselocale returns the locale used before and concerns one thread. newlocale makes a new object with the categories of the mask from the named locale and the others from the base, or from the C locale for a null base; duplocale makes an independent copy, of the global locale too.", "quantifier": "for all locale files, states, threads, categories, masks and names", "why_tests_cant": "A test has few locale files, mostly none; that another category or another thread sees a change shows only in combinations.", "anchors": ["src/header/locale/mod.rs:38-52", "src/header/locale/mod.rs:56-93", "src/header/locale/mod.rs:97-115", "src/header/locale/mod.rs:119-145", "src/header/locale/mod.rs:157-169", "src/header/locale/data.rs:146-183"]}
{"id": "C145", "title": "Locale definition files are read line by line", "statement": "A locale definition file of lines with a keyword and a value gives each field of lconv the value of the last line with its keyword: a string is the text between the quotes, with characters by symbolic name replaced, a number that of its digits and CHAR_MAX for -1, a grouping the list of its numbers. A value that ends in a backslash goes on in the next line. Comments, blank lines and unknown keywords make no difference, and a field without a line is empty or CHAR_MAX.", "quantifier": "for all files made of such lines, all fields and values", "why_tests_cant": "The parser has to work for the files of all languages.", "anchors": ["src/header/locale/data.rs:279-339", "src/header/locale/data.rs:342-377"]}
{"id": "C146", "title": "Setting the times of a file changes these times and nothing else", "statement": "utimes, utime, futimens and utimensat set the access and modification times of the file named: to the times given (in microseconds, seconds, nanoseconds), to the present time for a null pointer or UTIME_NOW, not at all for UTIME_OMIT. A number of nanoseconds out of range is refused with EINVAL, AT_SYMLINK_NOFOLLOW changes the link itself, a call that fails changes nothing, and no other file changes.", "quantifier": "for every file system, file, path, pair of times and flag", "why_tests_cant": "A test sets a few times on a file of its own; it does not check every other file, every special value in either position, nor the link/target combinations.", "anchors": ["src/header/utime/mod.rs:44", "src/header/sys_time/mod.rs:127", "src/header/sys_stat/mod.rs:177", "src/header/sys_stat/mod.rs:260", "src/platform/redox/libredox.rs:194", "src/platform/pal/mod.rs:163-171"]}
{"id": "C147", "title": "posix_fallocate keeps the content and reaches the end of the range", "statement": "posix_fallocate on Redox makes the file at least offset + len bytes long, never shorter, keeps every byte it has and fills up with zeros; ranges that are none are refused with EINVAL, an end above the largest off_t with EFBIG, and a call that fails leaves the file as it is.", "quantifier": "for every file content, offset and length, and every answer of the kernel", "why_tests_cant": "A test allocates a few ranges; the relation of old length and end of range is unbounded and the failures of the kernel cannot be provoked.", "anchors": ["src/header/fcntl/mod.rs:186", "src/platform/redox/mod.rs:972"]}
{"id": "C148", "title": "gethostname writes the name of the host within the buffer", "statement": "gethostname on Redox writes the name in /etc/hostname with a zero byte into the buffer if it has room, never writes behind the buffer, and fails without writing if the file cannot be read.", "quantifier": "for every content of the file and every buffer", "why_tests_cant": "The host name of the machine running the test is one fixed string.", "anchors": ["src/header/unistd/mod.rs:611", "src/platform/redox/mod.rs:1656"]}
{"id": "C149", "title": "The message for an error number is whole and within its buffer", "statement": "strerror gives for every error number of errno.h the message for it, and for every other number \"Unknown error\" with the number, whole, whatever was in its buffer before, and never writes behind the buffer. strerror_r gives the same message, or as much as has room with a zero at the end and ERANGE. perror prints the prefix, a colon and the same message.", "quantifier": "for all 2^32 numbers, every earlier content of the static buffer, every caller's buffer, every prefix and every division of the writes", "why_tests_cant": "All numbers and buffer sizes cannot be tried, nor can the write system call be made to take part of the message.", "anchors": ["src/header/string/mod.rs:386", "src/header/string/mod.rs:409", "src/header/stdio/mod.rs:1082", "src/header/errno/mod.rs:181", "src/platform/mod.rs:145"]}
{"id": "C150", "title": "The description of a signal", "statement": "strsignal describes each of the signals 1 to 31 with words of its own and every other number as unknown; psignal prints the prefix, if it is not a null pointer and not empty, and this description, and leaves errno unchanged.", "quantifier": "for all 2^32 numbers and every prefix and errno", "why_tests_cant": "All numbers cannot be tried.", "anchors": ["src/header/string/mod.rs:617", "src/header/signal/mod.rs:850"]}
{"id": "C151", "title": "err and warn write one line and end the process with the status given", "statement": "warn, warnc and warnx add exactly one line (program, message, error of errno or of the code) to the stream set with err_set_file (standard error by default) and to no other; err, errc and errx do the same, call the function set with err_set_exit with the status, and end the process with the status.", "quantifier": "for every program name, message, code, status, stream and callback, and every earlier choice", "why_tests_cant": "The functions that end the process cannot be run in a unit test of the same process, and every combination of stream, code and message is not finite.", "anchors": ["src/header/err/mod.rs:70", "src/header/err/mod.rs:172", "src/header/err/mod.rs:218"]}
{"id": "C152", "title": "The program break moves within its area and pieces do not overlap", "statement": "sbrk of n gives the old break and moves it by n, or fails and leaves it where it is; the pieces given out in any row of calls lie in the area reserved and do not overlap. brk sets the break to an address of the area. The break can be moved back. (Redox)", "quantifier": "for every place of the area, every state and every row of calls", "why_tests_cant": "The rows of calls are unbounded and the first call happens once per process, at an address the kernel chooses.", "anchors": ["src/header/unistd/brk.rs:21", "src/header/unistd/brk.rs:39", "src/platform/redox/mod.rs:151"]}
{"id": "C153", "title": "Shared memory objects have names of their own", "statement": "shm_open and shm_unlink of the same name mean the same object, of different names (apart from slashes at the beginning) different objects, and the object is an entry of the directory for shared memory, whatever the name.", "quantifier": "for every name, on both platforms", "why_tests_cant": "Names are unbounded; a test tries a few harmless ones.", "anchors": ["src/header/sys_mman/mod.rs:163", "src/header/sys_mman/mod.rs:185", "src/header/sys_mman/mod.rs:192"]}
{"id": "C154", "title": "swab exchanges the bytes of each pair and nothing else", "statement": "swab of n bytes stores the two bytes of each pair exchanged, for all pairs there are in n bytes; the rest of the destination is unchanged, and a number that is not positive changes nothing.", "quantifier": "for every content and every number of bytes", "why_tests_cant": "Contents and lengths are unbounded.", "anchors": ["src/header/unistd/mod.rs:1200"]}
{"id": "C155", "title": "getgroups gives the groups the user is a member of", "statement": "On Redox, `getgroups(size, list)` stores the ids of the groups that have the effective user as a member, in the order of the group database, and returns their number; with size 0 it stores nothing and returns the number; if there are more than `size` it fails with EINVAL; it never writes outside the array, and it does not disturb an enumeration with `getgrent`.", "quantifier": "for all user and group databases, all effective users, all sizes and arrays, all states of the enumeration", "why_tests_cant": "Two databases of arbitrary content are joined; tests see a few files and never a call in the middle of an enumeration.", "anchors": ["src/platform/redox/mod.rs:581-627", "src/header/unistd/mod.rs:589-603"]}
{"id": "C156", "title": "posix_getdents delivers every entry once", "statement": "Calls of `posix_getdents` with buffers of any sizes deliver the entries of a directory whole, in order, each once, then 0; a buffer too small for the next entry gives EINVAL and the entry is delivered by the next call; a failed call does not move the position.", "quantifier": "for all directories, all numbers the kernel gives to places, all sequences of buffer sizes, all choices of how many entries a call gets", "why_tests_cant": "How many entries a call gets is up to the kernel, and the positions are numbers without order.", "anchors": ["src/platform/redox/mod.rs:1003-1027", "src/platform/redox/mod.rs:557-567", "src/header/dirent/mod.rs:261-272"]}
{"id": "C157", "title": "mmap, munmap and mprotect act on whole pages", "statement": "On Redox, `mmap`, `munmap` and `mprotect` ask the kernel for exactly the pages that hold one of the bytes, with the protection and the flags given; `munmap` with the length given to `mmap` removes exactly what was mapped; length 0 and lengths beyond the address space are refused; every flag has its own meaning; `msync` makes changes reach the file.", "quantifier": "for all addresses, lengths, protections and flags", "why_tests_cant": "Rounding near the end of the address space and the overlap of flag values are not exercised.", "anchors": ["src/platform/redox/mod.rs:88-91", "src/platform/redox/mod.rs:828-919", "src/header/sys_mman/redox.rs:3-11"]}
{"id": "C158", "title": "Names of terminals", "statement": "`ttyname_r` writes the name of the terminal, NUL-terminated, within the array; it returns ENOTTY for a descriptor that is no terminal, ERANGE for an array that is too short, and the number of the error otherwise. `ctermid` writes the name of the controlling terminal.", "quantifier": "for all descriptors, names and arrays", "why_tests_cant": "Errors are rare and depend on the length of names.", "anchors": ["src/header/unistd/mod.rs:1300-1327", "src/header/stdio/mod.rs:432-440", "src/platform/redox/mod.rs:1081-1094"]}
{"id": "C159", "title": "daemon leaves a detached process", "statement": "`daemon` ends the caller with status 0 and leaves a process in a new session that works in the root directory and has the null file on descriptors 0, 1 and 2 (unless asked not to), with every other descriptor as it was; it returns \u22121 in the caller exactly if the directory, the null file, a descriptor or the fork cannot be had.", "quantifier": "for all states of the descriptors, both options, all failures of system calls", "why_tests_cant": "The number that open gives depends on which of 0, 1 and 2 are open; failures cannot be provoked.", "anchors": ["src/header/unistd/mod.rs:249-279"]}
{"id": "C160", "title": "getpass reads a line without echo and sets the terminal back", "statement": "While `getpass` reads there is no echo and no signal from the keyboard; it returns the line without its newline, terminated within its array, and leaves the terminal as it found it, also when something fails.", "quantifier": "for all terminal settings, all lines, all failures of reads and writes", "why_tests_cant": "Needs a terminal; failures of reads cannot be provoked.", "anchors": ["src/header/unistd/getpass.rs:17-72"]}
{"id": "C161", "title": "confstr returns the size of the value and writes it within the array", "statement": "`confstr` returns the number of bytes the value needs with its NUL, and writes the value into the array, cut if necessary and always terminated; a name that is none of `unistd.h` gives EINVAL, the others do not.", "quantifier": "for all names and arrays", "why_tests_cant": "The values are only looked at for one name and one size.", "anchors": ["src/header/unistd/mod.rs:219-238", "src/header/unistd/mod.rs:96-131"]}
{"id": "C162", "title": "sleep and usleep sleep the time given and report what is left", "statement": "`sleep` asks for exactly the seconds given; it returns 0 if they passed and otherwise the time left, never more than asked for; an interruption can be told from the end. `usleep` asks for exactly the microseconds given, as a valid time.", "quantifier": "for all times and all moments of an interruption", "why_tests_cant": "The moment of an interruption is not under the control of a test.", "anchors": ["src/header/unistd/mod.rs:1179-1196", "src/header/unistd/mod.rs:1386-1401"]}
{"id": "C163", "title": "Names and indexes of interfaces belong together", "statement": "`if_nametoindex`, `if_indextoname` and `if_nameindex` agree: every index of the list is of its name and back, other names give 0 and other indexes ENXIO; `if_indextoname` puts the name into the array of the caller.", "quantifier": "for all names, indexes and arrays", "why_tests_cant": "Agreement of three functions on all names.", "anchors": ["src/header/net_if/mod.rs:30-91"]}
{"id": "C164", "title": "wcswidth counts the columns of a wide string", "statement": "`wcswidth(s, n)` gives the sum of the columns of the first `n` characters, or of those before the end of the string if it is shorter, or \u22121 if one of them is not printable; it reads nothing behind the end.", "quantifier": "for all strings, all `n`, all tables of widths", "why_tests_cant": "What is read behind the end does not show.", "anchors": ["src/header/wchar/mod.rs:953-963"]}
{"id": "C165", "title": "div and abs are those of ISO C", "statement": "`div`, `ldiv` and `lldiv` give the quotient without its fraction and the remainder that goes with it, whenever the quotient exists and can be represented; `abs`, `labs` and `llabs` give the absolute value if it can be represented.", "quantifier": "for all numbers and all three widths", "why_tests_cant": "The corner cases lie among 2^64 pairs.", "anchors": ["src/header/stdlib/mod.rs:140-142", "src/header/stdlib/mod.rs:302-307", "src/header/stdlib/mod.rs:622-686"]}
{"id": "C166", "title": "The views of the clock agree", "statement": "`clock` gives the whole microseconds of the processor's clock and \u22121 exactly if it cannot be read, and never goes back; `gettimeofday` and `ftime` give the whole microseconds and milliseconds of the same clock; `timespec_get` and `timespec_getres` read the clock named by the base and return the base, or 0.", "quantifier": "for all times, bases and failures", "why_tests_cant": "Rounding at every boundary; the time cannot be chosen.", "anchors": ["src/header/time/mod.rs:221-235", "src/header/time/mod.rs:630-644", "src/platform/redox/mod.rs:203-229", "src/platform/redox/mod.rs:746-761", "src/header/sys_timeb/mod.rs:48-74"]}
{"id": "C167", "title": "rand repeats what the seed determines", "statement": "After `srand(s)` the numbers of `rand` are those of `s`, whatever was done before; without `srand` they are those of seed 1; they lie between 0 and RAND_MAX; different seeds are different sequences. `rand_r` depends on its seed only, and on all of it.", "quantifier": "for all seeds, all lengths of sequences, all histories", "why_tests_cant": "Sequences of any length after any history.", "anchors": ["src/header/stdlib/mod.rs:1115-1150", "src/header/stdlib/mod.rs:1371-1373"]}
{"id": "C168", "title": "A cursor is a file in memory", "statement": "Reading, writing and seeking with a cursor over a slice or a vector act on exactly the bytes at the position, fill gaps with zeros, refuse positions that do not exist and leave everything else alone; `fpath`, which is written with it, gives the whole path or ENAMETOOLONG.", "quantifier": "for all contents, positions, offsets and buffers, all lengths of paths", "why_tests_cant": "Positions near the ends of a 64-bit range, all lengths.", "anchors": ["src/io/cursor.rs:82-317", "src/io/mod.rs:1754-1769", "src/platform/redox/mod.rs:1068-1095"]}
{"id": "C169", "title": "pathconf answers every name", "statement": "`pathconf` and `fpathconf` agree, give no limit below what POSIX demands, leave `errno` alone for names without a limit, and refuse other names with EINVAL.", "quantifier": "for all names, paths and descriptors", "why_tests_cant": "All values of an int.", "anchors": ["src/header/unistd/pathconf.rs:62-121"]}
{"id": "C170", "title": "Calls made of several calls keep the promise of one", "statement": "`truncate` and `statvfs` close what they open and report the error of the step that failed; `remove` fails as `unlink` does for a file and as `rmdir` does for a directory, and then changes nothing; `renameat2` with RENAME_NOREPLACE never replaces a file.", "quantifier": "for all results of the steps, all actions of other processes in between", "why_tests_cant": "Failures of a step and races cannot be provoked.", "anchors": ["src/header/unistd/mod.rs:1283-1296", "src/header/sys_statvfs/mod.rs:44-58", "src/header/stdio/mod.rs:1275-1281", "src/platform/redox/mod.rs:1107-1140"]}
{"id": "C171", "title": "A password that was hashed verifies", "statement": "The string that crypt returns for a password and a setting can be used as the setting: for every password it gives what the original setting gives, so that the right password gives the string again. A setting of an unknown kind gives a null pointer and EINVAL, and what crypt_r writes stays within crypt_data.", "quantifier": "for all passwords, all settings of the kinds $1$, $2?$, $5$, $6$, $7$, $8$, $argon2 and all others, and all underlying hash functions with base-64 output", "why_tests_cant": "A test vector checks one setting and one password against a table; it does not show that the salt, the rounds and the prefix are always parsed back from the output", "anchors": ["src/header/crypt/mod.rs:67-120", "src/header/crypt/sha.rs:56-140", "src/header/crypt/md5.rs", "src/header/crypt/blowfish.rs:13-90", "src/header/crypt/pbkdf2.rs:39-64", "src/header/crypt/scrypt.rs:10-113", "src/header/crypt/argon2.rs:7-16"]}
{"id": "C172", "title": "regexec reports the groups of a match within the array, and regerror a terminated text", "statement": "regcomp either stores a compiled expression and returns 0 or returns a code of regex.h. regexec returns 0 exactly if the string matches under the flags given to regcomp and to regexec; it sets exactly the first nmatch entries to the offsets of the groups or to -1, and ignores the array if the expression was compiled with REG_NOSUB. regerror returns the size needed, and what it writes is a terminated string that fits.", "quantifier": "for all patterns, strings, flags, array lengths, error codes and buffer sizes, and every matcher", "why_tests_cant": "The combinations of flags, groups that take no part and array and buffer sizes are unbounded; tests try a few patterns with large arrays", "anchors": ["src/header/regex/mod.rs:58-169"]}
{"id": "C173", "title": "A buffered reader delivers the bytes of the file", "statement": "However a BufReader is used \u2014 reads of any size, read_until, seeks \u2014 the outcomes are those of reading the file without a buffer: every byte from the position on, none lost and none twice, whatever the sizes of the buffer and of the underlying reads, across interruptions and errors.", "quantifier": "for all file contents, buffer sizes, sequences of operations and schedules of short, interrupted and failing reads", "why_tests_cant": "A test uses one file, one buffer size and an operating system that seldom returns short reads", "anchors": ["src/io/buffered.rs:53-237", "src/io/mod.rs:398-424", "src/fs.rs:83-118"]}
{"id": "C174", "title": "Words and stored positions of a stream", "statement": "putw writes the four bytes of an int, lowest first, and returns 0 exactly if all were accepted; getw reads the next four bytes as an int, so that every word written with putw is read back, and returns -1 with end-of-file or error set if there are not four bytes (and, unavoidably, for the word -1). fgetpos stores the position ftell reports and changes nothing; fsetpos with a stored position, whatever was read or sought in between, brings back the position and what there was to read there.", "quantifier": "for every word, every stream state, every file contents, every buffer size and every pattern of short reads, short writes and errors of the kernel", "why_tests_cant": "A test writes and reads a few words from one file; the claim covers all 2^32 words at every buffer boundary, short transfers in the middle of a word, and every sequence of calls between fgetpos and fsetpos.", "anchors": ["src/header/stdio/mod.rs:577-584", "src/header/stdio/mod.rs:894-896", "src/header/stdio/mod.rs:1037-1054", "src/header/stdio/mod.rs:1258-1268"]}
{"id": "C175", "title": "Strings ended by a NUL", "statement": "Every string argument goes through NulStr: cutting at a character gives the part before its first occurrence and the string that begins with it, or everything and the empty string; taking characters one by one gives exactly those of the string and ends at its NUL; the length and the contents are those up to the first NUL, and nothing after it is read. A byte array is accepted as a string exactly if it has one NUL, at its end (with_nul), or at least one (until_nul), and is then the bytes before the first NUL.", "quantifier": "for every memory, every string of any length, narrow or wide, every character searched for, and every byte array", "why_tests_cant": "Tests call the functions with literal strings in large readable buffers; reading one element past the terminator, or a wrong cut for a character that is absent or is NUL itself, is not visible there.", "anchors": ["src/c_str.rs:83-89", "src/c_str.rs:135-257", "src/c_str.rs:262-268"]}
{"id": "C176", "title": "Readers built from readers, and reading or writing everything", "statement": "Reading from a file, from the first n bytes of a reader, or from one reader after another, in any nesting, gives the bytes in order, none lost and none twice: read_to_end appends all that is left and returns how many, read_exact succeeds exactly if there are enough bytes and gives the first ones, read_to_string adds only text and leaves the string alone otherwise; the limit of a reader is never exceeded, and the second reader is not touched before the first is at its end. write_all succeeds exactly if all bytes were accepted, in order and once. Interrupted calls are repeated; another error is handed on with what was read so far in place.", "quantifier": "for every nesting of readers, every contents, every pattern of short transfers, interruptions and errors, every buffer and every growth of the vector", "why_tests_cant": "A test uses a few literal readers; short transfers, interruptions and errors at every position, in every nesting, cannot be listed.", "anchors": ["src/io/mod.rs:323-396", "src/io/mod.rs:739-759", "src/io/mod.rs:1379-1390", "src/io/mod.rs:1572-1593", "src/io/mod.rs:1754-1770"]}
{"id": "C177", "title": "uname fills every field with its own string", "statement": "uname stores the host's name, the four lines the kernel gives (system, release, machine, version), each in its own field, and an empty domain name; every field is NUL-terminated after success, no field is overrun whatever the files hold, and a missing file, a missing line, a line that does not fit or is not text makes it fail.", "quantifier": "for all contents of the two files, all previous contents of the structure", "why_tests_cant": "A test sees the names of one machine; names at the limits of the arrays, malformed files and the contents of the rest of the structure cannot be listed.", "anchors": ["src/platform/redox/mod.rs:1656-1732", "src/header/sys_utsname/mod.rs:20-50", "src/io/mod.rs:2000-2024", "src/out.rs:157-164"]}
{"id": "C178", "title": "ioctl on terminals and descriptors", "statement": "What a request sets on a terminal (attributes, window size, foreground group, lock of a pseudoterminal) the matching request gets, byte for byte, and no other attribute changes; a request reads or writes exactly the bytes of its type at the pointer and nothing beyond; FIONBIO changes O_NONBLOCK as asked and no other status flag; the commands for flush, break and flow hand over their number; an error of the device is handed on; unknown requests fail with EINVAL and do nothing; a graphics request is decoded into number, direction and size, and data moves only in that direction and only with the right size.", "quantifier": "for every device, every state of it, every request number, every argument and every contents of the object pointed to", "why_tests_cant": "A test needs a terminal and sees a few requests; that all request numbers are told apart, that nothing beyond the object is touched and that all other flags stay cannot be enumerated.", "anchors": ["src/header/sys_ioctl/redox/mod.rs:1-196", "src/header/sys_ioctl/mod.rs:24-40", "src/header/sys_ioctl/constants.rs:8-61"]}
{"id": "C179", "title": "sysconf answers", "statement": "sysconf gives the number of processors the system's file names on its line 'CPUs:', and 1 if there is none or it cannot be read; the page size and the memory are what the system says; every limit is either absent (-1 without an error) or at least the minimum POSIX promises; exactly the unknown names give -1 with EINVAL.", "quantifier": "for all contents of the processor file, all memory sizes and all names", "why_tests_cant": "A test sees one machine with one file; other layouts of the file, cut numbers and the whole range of names cannot be listed.", "anchors": ["src/header/unistd/sysconf/redox.rs:15-85", "src/header/unistd/sysconf/constants.rs", "src/header/unistd/sysconf.rs:20-23"]}
